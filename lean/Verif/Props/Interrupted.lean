import Verif.Props.Train
import Verif.Props.Setters
import Verif.Props.TwoModels
import Verif.Props.Losses
import Verif.Props.Typed

/-!
# A training call that throws (C92)
-/

set_option linter.unusedSectionVars false

namespace SmartDNN
open Net Spec

section
variable {ρ T : Type} [Zero T] [One T] [Add T] [Sub T] [Mul T] [Div T] [Neg T] [NatCast T] [IntCast T]
  [LT T] [DecidableLT T] [LE T] [DecidableLE T] [DecidableEq T] [MathFn T]

/-! ### Specification -/

/-- What has been learned is the same: every layer has the same parameters (weights and biases, gamma and beta), and the
optimizer is in the same state (momentum buffers, moments, counter, rate).  Loss and optimizer settings are the same, too. -/
def Spec.SameLearned (a b : Net ρ T) : Prop :=
  b.layers.map params = a.layers.map params ∧ b.optimizer = a.optimizer ∧ b.loss = a.loss

/-! ### What `forward` and `backward` leave alone -/

/-- `m` does not change `f` of the object. -/
def Preserves {σ α β : Type} (f : σ → β) (m : Mut σ α) : Prop := ∀ s, f (m s).2 = f s

theorem preserves_bind {σ α β γ : Type} {f : σ → γ} {m : Mut σ α} {g : α → Mut σ β} (hm : Preserves f m)
    (hg : ∀ a, Preserves f (g a)) : Preserves f (m >>= g) := by
  intro s
  rw [Mut.bind_apply]
  have := hm s
  rcases h : m s with ⟨e | a, s'⟩
  · rw [h] at this; exact this
  · rw [h] at this; exact (hg a s').trans this

theorem preserves_lift {σ α γ : Type} (f : σ → γ) (r : Res α) : Preserves f (Mut.lift r : Mut σ α) := fun _ => rfl

theorem preserves_pure {σ α γ : Type} (f : σ → γ) (a : α) : Preserves f (pure a : Mut σ α) := fun _ => rfl

theorem preserves_get {σ γ : Type} (f : σ → γ) : Preserves f (Mut.get : Mut σ σ) := fun _ => rfl

theorem preserves_modify {σ γ : Type} {f : σ → γ} {g : σ → σ} (h : ∀ s, f (g s) = f s) : Preserves f (Mut.modify g) := h

theorem preserves_ite {σ α γ : Type} {f : σ → γ} {c : Prop} [Decidable c] {m n : Mut σ α} (hm : Preserves f m) (hn : Preserves f n) :
    Preserves f (if c then m else n) := by
  split
  · exact hm
  · exact hn

theorem preserves_bnForward (mode : Bool) (x : Tensor T) :
    Preserves (fun l : BatchNorm T => (l.gamma, l.beta)) (BatchNorm.forward mode x) := by
  unfold BatchNorm.forward
  refine preserves_ite (preserves_lift _ _) (preserves_ite ?_ ?_)
  · refine preserves_bind (preserves_get _) fun _ => ?_
    repeat first
      | exact preserves_pure _ _
      | refine preserves_bind (preserves_lift _ _) fun _ => ?_
      | refine preserves_bind (preserves_modify fun _ => rfl) fun _ => ?_
  · refine preserves_bind (preserves_get _) fun _ => ?_
    repeat first
      | exact preserves_lift _ _
      | refine preserves_bind (preserves_lift _ _) fun _ => ?_

/-- `forward` of a layer changes neither its parameters nor its mode. -/
theorem forward_params (E : Engine ρ T) (x : Tensor T) (l : Layer T) (r : ρ) :
    params (Layer.forward E x (l, r)).2.1 = params l := by
  obtain ⟨kind, mode⟩ := l
  cases kind with
  | fc k => rfl
  | conv k =>
    have h := (conv_forward_res x k).2
    have h1 := congrArg Conv.weights h
    have h2 := congrArg Conv.biases h
    show some ((Conv.forward x k).2.weights, (Conv.forward x k).2.biases) = some (k.weights, k.biases)
    exact congrArg some (Prod.ext h1 h2)
  | flatten k => rfl
  | maxPool k => rfl
  | batchNorm k => exact congrArg some (preserves_bnForward mode x k)
  | dropout k => rfl
  | activation k => rfl

theorem preserves_fcBackward (g : Tensor T) : Preserves (fun l : FC T => (l.weights, l.biases)) (FC.backward g) := by
  unfold FC.backward
  refine preserves_bind (preserves_get _) fun l => ?_
  cases l.input with
  | none => exact preserves_lift _ _
  | some x =>
    repeat first
      | exact preserves_lift _ _
      | refine preserves_bind (preserves_lift _ _) fun _ => ?_
      | refine preserves_bind (preserves_modify fun _ => rfl) fun _ => ?_

theorem preserves_convBackward (g : Tensor T) : Preserves (fun l : Conv T => (l.weights, l.biases)) (Conv.backward g) := by
  unfold Conv.backward
  refine preserves_bind (preserves_get _) fun l => ?_
  cases l.input with
  | none => exact preserves_lift _ _
  | some x =>
    repeat first
      | exact preserves_lift _ _
      | refine preserves_bind (preserves_lift _ _) fun _ => ?_
      | refine preserves_bind (preserves_modify fun _ => rfl) fun _ => ?_

theorem preserves_bnBackward (g : Tensor T) : Preserves (fun l : BatchNorm T => (l.gamma, l.beta)) (BatchNorm.backward g) := by
  unfold BatchNorm.backward BatchNorm.backwardWith
  refine preserves_bind (preserves_get _) fun l => ?_
  split
  · refine preserves_bind (preserves_lift _ _) fun _ => ?_
    refine preserves_bind (preserves_modify fun _ => rfl) fun _ => ?_
    exact preserves_pure _ _
  · exact preserves_lift _ _

/-- `backward` of a layer changes no parameters. -/
theorem backward_params (g : Tensor T) (l : Layer T) : params (Layer.backward g l).2 = params l := by
  obtain ⟨kind, mode⟩ := l
  cases kind with
  | fc k => exact congrArg some (preserves_fcBackward g k)
  | conv k => exact congrArg some (preserves_convBackward g k)
  | flatten k => rfl
  | maxPool k => rfl
  | batchNorm k => exact congrArg some (preserves_bnBackward g k)
  | dropout k => rfl
  | activation k => rfl

theorem forwardLayers_params (E : Engine ρ T) (ls : List (Layer T)) : ∀ (x : Tensor T) (r : ρ),
    (forwardLayers E ls x r).2.1.map params = ls.map params := by
  induction ls with
  | nil => intro x r; rfl
  | cons l ls ih =>
    intro x r
    have h := forward_params E x l r
    unfold forwardLayers
    rcases hf : Layer.forward E x (l, r) with ⟨e | y, l', r'⟩
    · rw [hf] at h
      exact congrArg (· :: ls.map params) h
    · rw [hf] at h
      show params l' :: (forwardLayers E ls y r').2.1.map params = _
      rw [ih y r']
      exact congrArg (· :: ls.map params) h

theorem backwardLayers_params (ls : List (Layer T)) : ∀ (g : Tensor T), (backwardLayers ls g).2.map params = ls.map params := by
  induction ls with
  | nil => intro g; rfl
  | cons l ls ih =>
    intro g
    have h := ih g
    unfold backwardLayers
    rcases hf : backwardLayers ls g with ⟨e | g', ls'⟩
    · rw [hf] at h
      exact congrArg (params l :: ·) h
    · rw [hf] at h
      have hl := backward_params g' l
      show params (Layer.backward g' l).2 :: ls'.map params = _
      rw [hl]
      exact congrArg (params l :: ·) h

theorem predict_learned (E : Engine ρ T) (x : Tensor T) (net : Net ρ T) : SameLearned net (predict E x net).2 :=
  ⟨forwardLayers_params E net.layers x net.rng, rfl, rfl⟩

theorem backward_learned (g : Tensor T) (net : Net ρ T) : SameLearned net (backward g net).2 :=
  ⟨backwardLayers_params net.layers g, rfl, rfl⟩

theorem Spec.SameLearned.trans {a b c : Net ρ T} (h1 : SameLearned a b) (h2 : SameLearned b c) : SameLearned a c :=
  ⟨h2.1.trans h1.1, h2.2.1.trans h1.2.1, h2.2.2.trans h1.2.2⟩

/-! ### After `backward`, the update cannot throw -/

theorem sgd_loop_ub (o : SGDOptions T) (w b g : Tensor T) (lr : T) : OnlyUb (SGD.loop o w b g lr) := by
  refine onlyUb_forN _ _ _ fun j st => onlyUb_bind (onlyUb_rd _ _) fun _ => onlyUb_bind (onlyUb_rd _ _) fun _ => onlyUb_ite ?_ ?_
  · exact onlyUb_bind (onlyUb_rd _ _) fun _ => onlyUb_bind (onlyUb_set _ _ _) fun _ => onlyUb_bind (onlyUb_set _ _ _) fun _ => onlyUb_pure _
  · exact onlyUb_bind (onlyUb_set _ _ _) fun _ => onlyUb_pure _

theorem rms_loop_ub (o : RMSPropOptions T) (s : RMSState T) (g : Tensor T) (lr : T) : OnlyUb (RMSProp.loop o s g lr) := by
  refine onlyUb_forN _ _ _ fun j st => onlyUb_bind (onlyUb_rd _ _) fun _ => onlyUb_bind (onlyUb_rd _ _) fun _ =>
    onlyUb_bind (onlyUb_rd _ _) fun _ => onlyUb_bind (onlyUb_set _ _ _) fun _ => onlyUb_bind (onlyUb_ite ?_ ?_) fun _ => onlyUb_ite ?_ ?_
  · exact onlyUb_bind (onlyUb_rd _ _) fun _ => onlyUb_bind (onlyUb_set _ _ _) fun _ => onlyUb_pure _
  · exact onlyUb_pure _
  · exact onlyUb_bind (onlyUb_rd _ _) fun _ => onlyUb_bind (onlyUb_set _ _ _) fun _ => onlyUb_bind (onlyUb_set _ _ _) fun _ => onlyUb_pure _
  · exact onlyUb_bind (onlyUb_set _ _ _) fun _ => onlyUb_pure _

theorem adam_loop_ub (o : AdamOptions T) (lr : T) (it : Nat) (s : Tensor T × Tensor T × Tensor T) (g : Tensor T) :
    OnlyUb (Adam.loop o lr it s g) :=
  onlyUb_forN _ _ _ fun j st => onlyUb_bind (onlyUb_rd _ _) fun _ => onlyUb_bind (onlyUb_rd _ _) fun _ =>
    onlyUb_bind (onlyUb_rd _ _) fun _ => onlyUb_bind (onlyUb_rd _ _) fun _ => onlyUb_bind (onlyUb_set _ _ _) fun _ =>
    onlyUb_bind (onlyUb_set _ _ _) fun _ => onlyUb_bind (onlyUb_set _ _ _) fun _ => onlyUb_pure _

theorem stepPair_ub {K : Type} [DecidableEq K] (r : T) (w : World K T) (p : K × Tensor T) : OnlyUb (stepPair r w p) := by
  obtain ⟨mem, o⟩ := w
  cases o with
  | sgd o => exact onlyUb_bind (onlyUb_bind (sgd_loop_ub _ _ _ _ _) fun _ => onlyUb_pure _) fun _ => onlyUb_pure _
  | rmsprop o => exact onlyUb_bind (onlyUb_bind (rms_loop_ub _ _ _ _) fun _ => onlyUb_pure _) fun _ => onlyUb_pure _
  | adam o => exact onlyUb_bind (onlyUb_bind (adam_loop_ub _ _ _ _ _) fun _ => onlyUb_pure _) fun _ => onlyUb_pure _

theorem updateTensors_ub {K : Type} [DecidableEq K] (r : T) (ps : List (K × Tensor T)) : ∀ w : World K T, OnlyUb (w.updateTensors r ps) := by
  induction ps with
  | nil => intro w; exact onlyUb_pure _
  | cons p ps ih =>
    intro w
    rw [updateTensors_eq, List.foldlM_cons]
    refine onlyUb_bind (stepPair_ub r w p) fun w' => ?_
    have := ih w'
    rw [updateTensors_eq] at this
    exact this

theorem optimizePair_ub {K : Type} [DecidableEq K] (k0 k1 : K) (opt : Optimizer K T) (p0 p1 g0 g1 : Tensor T) :
    OnlyUb (Layer.optimizePair k0 k1 opt p0 p1 g0 g1).1 := by
  unfold Layer.optimizePair World.optimizeM
  rw [if_neg (by simp)]
  simp only
  have := updateTensors_ub (-1 : T) ([k0, k1].zip [g0, g1]) (World.begin (⟨fun k => if k = k0 then p0 else p1, opt⟩ : World K T) (-1))
  intro e he
  split at he
  · cases he
  · next e' h' =>
    cases he
    exact this e h'

/-- Layers without parameters or with both gradients. -/
def Filled (l : Layer T) : Prop := Trainable l → HasGradients l

theorem layer_update_ub {K : Type} [DecidableEq K] (k0 k1 : K) (l : Layer T) (opt : Optimizer K T) (h : Filled l) :
    OnlyUb (Layer.updateWeights k0 k1 (l, opt)).1 := by
  by_cases ht : Trainable l
  · obtain ⟨p, hp⟩ := (params_trainable l).1 ht
    obtain ⟨g, hg⟩ := (grads_iff l).1 (h ht)
    rw [(C56_layer_values k0 k1 l opt p g hp hg).1]
    exact optimizePair_ub _ _ _ _ _ _ _
  · rw [C56_layer_other k0 k1 l opt ht]
    exact onlyUb_pure _

theorem updateLayers_ub (ls : List (Layer T)) : ∀ (i : Nat) (opt : Optimizer (Nat × Bool) T), (∀ l ∈ ls, Filled l) →
    OnlyUb (updateLayers i ls opt).1 := by
  induction ls with
  | nil => intro i opt _; exact onlyUb_pure _
  | cons l ls ih =>
    intro i opt h
    have h1 := layer_update_ub (i, false) (i, true) l opt (h l (by simp))
    unfold updateLayers
    rcases hu : Layer.updateWeights (i, false) (i, true) (l, opt) with ⟨e | u, l', opt'⟩
    · rw [hu] at h1; exact h1
    · exact ih (i + 1) opt' fun m hm => h m (by simp [hm])

theorem lift_bind_ok {σ α β : Type} {r : Res α} {f : α → Mut σ β} {s : σ} {b : β} (h : ((Mut.lift r >>= f) s).1 = .ok b) :
    ∃ a, r = .ok a ∧ (f a s).1 = .ok b ∧ (Mut.lift r >>= f) s = f a s := by
  cases r with
  | error e => cases h
  | ok a => exact ⟨a, rfl, h, rfl⟩

/-- A `backward` that returns has stored both gradients. -/
theorem backward_filled (g g' : Tensor T) (l : Layer T) (h : (Layer.backward g l).1 = .ok g') : Filled (Layer.backward g l).2 := by
  obtain ⟨kind, mode⟩ := l
  cases kind with
  | fc k =>
    intro _
    show (FC.backward g k).2.weightGradients.isSome ∧ (FC.backward g k).2.biasGradients.isSome
    have h : (FC.backward g k).1 = .ok g' := h
    unfold FC.backward at h ⊢
    rw [Mut.get_bind] at h ⊢
    rcases hi : k.input with _ | x
    · rw [hi] at h; cases h
    · rw [hi] at h
      simp only at h ⊢
      obtain ⟨a, -, h, e⟩ := lift_bind_ok h; rw [e]; clear e
      obtain ⟨b, -, h, e⟩ := lift_bind_ok h; rw [e]; clear e
      obtain ⟨c, -, h, e⟩ := lift_bind_ok h; rw [e]; clear e
      rw [Mut.modify_bind] at h ⊢
      obtain ⟨d, -, h, e⟩ := lift_bind_ok h; rw [e]; clear e
      exact ⟨rfl, rfl⟩
  | conv k =>
    intro _
    show (Conv.backward g k).2.weightGradients.isSome ∧ (Conv.backward g k).2.biasGradients.isSome
    have h : (Conv.backward g k).1 = .ok g' := h
    unfold Conv.backward at h ⊢
    rw [Mut.get_bind] at h ⊢
    rcases hi : k.input with _ | x
    · rw [hi] at h; cases h
    · rw [hi] at h
      simp only at h ⊢
      rw [Mut.modify_bind] at h ⊢
      obtain ⟨a, -, h, e⟩ := lift_bind_ok h; rw [e]; clear e
      rw [Mut.modify_bind] at h ⊢
      obtain ⟨d, -, h, e⟩ := lift_bind_ok h; rw [e]; clear e
      exact ⟨rfl, rfl⟩
  | batchNorm k =>
    intro _
    show (BatchNorm.backward g k).2.gammaGrad.isSome ∧ (BatchNorm.backward g k).2.betaGrad.isSome
    have h : (BatchNorm.backward g k).1 = .ok g' := h
    unfold BatchNorm.backward BatchNorm.backwardWith at h ⊢
    rw [Mut.get_bind] at h ⊢
    rcases h1 : k.batchMean with _ | m <;> rcases h2 : k.batchVariance with _ | v <;> rcases h3 : k.normalizedInput with _ | n <;>
      simp only [h1, h2, h3] at h ⊢
    case some.some.some =>
      obtain ⟨a, -, h, e⟩ := lift_bind_ok h; rw [e]; clear e
      exact ⟨rfl, rfl⟩
    all_goals cases h
  | flatten k => exact fun h => h.elim
  | maxPool k => exact fun h => h.elim
  | dropout k => exact fun h => h.elim
  | activation k => exact fun h => h.elim

theorem backwardLayers_filled (ls : List (Layer T)) : ∀ (g g' : Tensor T) (ls' : List (Layer T)),
    backwardLayers ls g = (.ok g', ls') → ∀ l ∈ ls', Filled l := by
  induction ls with
  | nil => intro g g' ls' h; cases h; simp
  | cons l ls ih =>
    intro g g' ls' h
    unfold backwardLayers at h
    rcases hf : backwardLayers ls g with ⟨e | g1, ls1⟩
    · rw [hf] at h; cases h
    · rw [hf] at h
      have h : (((Layer.backward g1 l).1, (Layer.backward g1 l).2 :: ls1) : Res (Tensor T) × List (Layer T)) = (.ok g', ls') := h
      obtain ⟨h1, rfl⟩ := Prod.ext_iff.1 h
      simp only [List.mem_cons]
      rintro m (rfl | hm)
      · exact backward_filled g1 g' l h1
      · exact ih g g1 ls1 hf m hm

/-- After a `backward` that returned, `updateWeights` does not throw. -/
theorem update_after_backward {g g' : Tensor T} {net net1 net' : Net ρ T} {e : Err} (hb : backward g net = (.ok g', net1))
    (hu : updateWeights net1 = (.error e, net')) : e = .ub := by
  unfold backward at hb
  rcases hf : backwardLayers net.layers g with ⟨res, ls'⟩
  rw [hf] at hb
  cases hb
  have hfill := backwardLayers_filled net.layers g g' ls' hf
  unfold updateWeights at hu
  split at hu
  · cases hu
  · cases hu; rfl
  · next l ls opt h1 h2 =>
    have := updateLayers_ub (l :: ls) 0 opt (by rw [← h1]; exact hfill)
    rcases hv : updateLayers 0 (l :: ls) opt with ⟨res, ls2, opt2⟩
    rw [hv] at hu this
    cases hu
    exact this e rfl

/-! ### The property -/

/-- A step that throws leaves what has been learned as it was before the step. -/
theorem stepFails_learned {E : Engine ρ T} {x : Tensor T} {y : Option (Tensor T)} {net net' : Net ρ T} {e : Err}
    (h : StepFails E x y net e net') (he : e.isException) : SameLearned net net' := by
  cases h with
  | forward h => have := predict_learned E x net; rw [h] at this; exact this
  | uncompiled h hl => cases he
  | noTarget h hl => cases he
  | loss h hl hc => have := predict_learned E x net; rw [h] at this; exact this
  | gradient h hl hc hg => have := predict_learned E x net; rw [h] at this; exact this
  | @backward y _ pred net1 L v g _ _ h hl hc hg hb =>
    have h1 := predict_learned E x net
    rw [h] at h1
    have h2 := backward_learned g net1
    rw [hb] at h2
    exact h1.trans h2
  | update h hl hc hg hb hu =>
    rw [update_after_backward hb hu] at he
    cases he

/-- **C92.** If `train` throws, it has trained on exactly the samples before the one that failed: there are numbers `m` of
epochs and `k` of samples such that the weights, biases, gammas, betas and the state of the optimizer are those after `m` full
epochs and the first `k` samples of the next one.  The losses of the `m` epochs have been printed, no others.  The failing sample
has left no trace in what has been learned. -/
theorem C92_learned (E : Engine ρ T) (inputs targets : List (Tensor T)) (epochs : Int) (net net' : Net ρ T) (rs : List (Tensor T))
    (e : Err) (h : trainCall E inputs targets epochs net = (.error e, net', rs)) (he : e.isException) :
    ∃ m k net1 net2 vs, m < epochs.toNat ∧ k ≤ inputs.length ∧ Epochs E (inputs.zip targets) m net net1 rs ∧
      Steps E ((inputs.take k).zip targets) net1 net2 vs ∧ SameLearned net2 net' := by
  obtain ⟨m, net1, net2, vs, hm, hep, ⟨k, x, hx, hs, hf⟩ | ⟨hs, -, -, rfl⟩⟩ := C55_train_fails E inputs targets epochs net net' rs e h
  · exact ⟨m, k, net1, net2, vs, hm, (List.getElem?_eq_some_iff.1 hx).1.le, hep, hs, stepFails_learned hf he⟩
  · exact ⟨m, inputs.length, net1, net', vs, hm, le_rfl, hep, by rw [List.take_length]; exact hs, rfl, rfl, rfl⟩

/-! ### Going on after the exception -/

/-- The layer with everything removed that `forward` and `backward` remember from one step for the next call. -/
def Spec.sansCaches (l : Layer T) : Layer T :=
  ⟨match l.kind with
    | .fc k => .fc { k with input := none, weightGradients := none, biasGradients := none }
    | .conv k => .conv { k with input := none, weightGradients := none, biasGradients := none }
    | .flatten _ => .flatten ⟨none⟩
    | .maxPool k => .maxPool { k with input := none }
    | .activation k => .activation { k with input := none }
    | .batchNorm k => .batchNorm k
    | .dropout k => .dropout k, l.trainingMode⟩

/-- Models that differ at most in what they remember of the last step. -/
def Spec.SameButCaches (a b : Net ρ T) : Prop :=
  b.layers.map sansCaches = a.layers.map sansCaches ∧ b.optimizer = a.optimizer ∧ b.loss = a.loss ∧ b.rng = a.rng

/-- Fully connected, convolution, pooling and activation layers in any order, and flatten layers where images come out of the
layer before (a convolution or pooling, perhaps followed by activations other than softmax); no batch normalisation and no dropout.
`images` says whether images come in. -/
def Spec.Stateless (images : Bool) : List (Layer T) → Prop
  | [] => True
  | l :: ls =>
    match l.kind with
    | .fc _ => Stateless false ls
    | .conv _ => Stateless true ls
    | .maxPool _ => Stateless true ls
    | .activation k =>
      match k.activation with
      | .softmax => Stateless false ls
      | _ => Stateless images ls
    | .flatten _ => images = true ∧ Stateless false ls
    | .batchNorm _ => False
    | .dropout _ => False

/-- Calls that do not use what earlier calls left in the layers (`backward` and `updateWeights` do) and keep the layers. -/
def Spec.Fresh : Api T → Prop
  | .train _ _ _ | .predict _ | .predictAll _ | .mode _ | .compile _ _ => True
  | .backward _ | .updateWeights | .addLayer _ => False

/-- Equal but for the stored gradients. -/
def SameButGrads (a b : Layer T) : Prop :=
  b.trainingMode = a.trainingMode ∧
  match a.kind, b.kind with
  | .fc a, .fc b => b.weights = a.weights ∧ b.biases = a.biases ∧ b.input = a.input
  | .conv a, .conv b => ({ b with weightGradients := none, biasGradients := none } : Conv T) =
      { a with weightGradients := none, biasGradients := none }
  | .flatten a, .flatten b => b = a
  | .maxPool a, .maxPool b => b = a
  | .activation a, .activation b => b = a
  | _, _ => False

/-- What the layers let through if images come in. -/
def outImages (images : Bool) (l : Layer T) : Bool :=
  match l.kind with
  | .conv _ => true
  | .maxPool _ => true
  | .activation k =>
    match k.activation with
    | .softmax => false
    | _ => images
  | _ => false

theorem plain_tail {images : Bool} {l : Layer T} {ls : List (Layer T)} (h : Stateless images (l :: ls)) : Stateless (outImages images l) ls := by
  obtain ⟨kind, mode⟩ := l
  unfold Stateless at h
  unfold outImages
  cases kind with
  | activation k =>
    obtain ⟨a, i⟩ := k
    cases a <;> exact h
  | flatten k => exact h.2
  | batchNorm k => exact h.elim
  | dropout k => exact h.elim
  | fc k => exact h
  | conv k => exact h
  | maxPool k => exact h

theorem forI_shape {n : Int} {t t' : Tensor T} {f : Int → Tensor T → Res (Tensor T)} (h : forI n t f = .ok t')
    (hf : ∀ i s s', f i s = .ok s' → s'.shape = s.shape) : t'.shape = t.shape := by
  unfold forI at h
  exact forN_post (fun s : Tensor T => s.shape = t.shape) (fun j s s' hs hj => (hf j s s' hj).trans hs) rfl h

theorem setAt_shape {t t' : Tensor T} {idx : List Int} {v : T} (h : t.setAt idx v = .ok t') : t'.shape = t.shape := by
  obtain ⟨k, -, h⟩ := bind_ok h
  obtain ⟨d, -, h⟩ := bind_ok h
  cases h
  rfl

theorem make_rank {ds : List Int} {s : Shape} (h : Shape.make ds = .ok s) : s.rank = ds.length := by
  unfold Shape.make at h
  obtain ⟨_, -, h⟩ := bind_ok h
  cases h
  rfl

theorem correlate_rank {k : Conv T} {x y : Tensor T} (h : k.correlate x = .ok y) : y.shape.rank = 4 := by
  obtain ⟨a, -, h⟩ := bind_ok h
  obtain ⟨b, -, h⟩ := bind_ok h
  obtain ⟨c, -, h⟩ := bind_ok h
  obtain ⟨s, hs, h⟩ := bind_ok h
  have : y.shape = s := by
    refine forI_shape h fun i t t' h => forI_shape h fun i t t' h => forI_shape h fun i t t' h => forI_shape h fun i t t' h => ?_
    obtain ⟨_, -, h⟩ := bind_ok h
    obtain ⟨_, -, h⟩ := bind_ok h
    exact setAt_shape h
  rw [this, make_rank hs]
  rfl

theorem pool_rank {k : MaxPool T} {x y : Tensor T} (h : k.pool x = .ok y) : y.shape.rank = 4 := by
  obtain ⟨a, -, h⟩ := bind_ok h
  obtain ⟨b, -, h⟩ := bind_ok h
  obtain ⟨c, -, h⟩ := bind_ok h
  obtain ⟨d, -, h⟩ := bind_ok h
  obtain ⟨e, -, h⟩ := bind_ok h
  obtain ⟨f, -, h⟩ := bind_ok h
  obtain ⟨s, hs, h⟩ := bind_ok h
  have : y.shape = s := by
    refine forI_shape h fun i t t' h => forI_shape h fun i t t' h => forI_shape h fun i t t' h => forI_shape h fun i t t' h => ?_
    obtain ⟨_, -, h⟩ := bind_ok h
    exact setAt_shape h
  rw [this, make_rank hs]
  rfl

/-- `forward` with and without caches. -/
theorem forward_caches (E : Engine ρ T) (images : Bool) (x : Tensor T) (hx : images = true → x.shape.rank = 4) (a b : Layer T)
    (h : sansCaches b = sansCaches a) (hp : Stateless images [a]) (r : ρ) :
    (Layer.forward E x (b, r)).1 = (Layer.forward E x (a, r)).1 ∧
    sansCaches (Layer.forward E x (a, r)).2.1 = sansCaches a ∧
    sansCaches (Layer.forward E x (b, r)).2.1 = sansCaches a ∧
    (Layer.forward E x (a, r)).2.2 = r ∧ (Layer.forward E x (b, r)).2.2 = r ∧
    ∀ y, (Layer.forward E x (a, r)).1 = .ok y → SameButGrads (Layer.forward E x (a, r)).2.1 (Layer.forward E x (b, r)).2.1 ∧
      (outImages images a = true → y.shape.rank = 4) := by
  obtain ⟨ka, ma⟩ := a
  obtain ⟨kb, mb⟩ := b
  cases ka <;> cases kb <;>
    simp only [sansCaches, Layer.mk.injEq, reduceCtorEq, false_and, LayerKind.fc.injEq, LayerKind.conv.injEq, LayerKind.maxPool.injEq, LayerKind.activation.injEq, LayerKind.batchNorm.injEq, LayerKind.dropout.injEq] at h
  case fc a b =>
    obtain ⟨w, bi, i, wg, bg⟩ := a
    obtain ⟨w', bi', i', wg', bg'⟩ := b
    simp only [FC.mk.injEq, and_true] at h
    obtain ⟨⟨rfl, rfl⟩, rfl⟩ := h
    exact ⟨rfl, rfl, rfl, rfl, rfl, fun y _ => ⟨⟨rfl, rfl, rfl, rfl⟩, fun h => by cases h⟩⟩
  case conv a b =>
    obtain ⟨a1, a2, a3, a4, a5, a6, a7, w, bi, i, wg, bg⟩ := a
    obtain ⟨b1, b2, b3, b4, b5, b6, b7, w', bi', i', wg', bg'⟩ := b
    simp only [Conv.mk.injEq, and_true] at h
    obtain ⟨⟨rfl, rfl, rfl, rfl, rfl, rfl, rfl, rfl, rfl⟩, rfl⟩ := h
    have ef : ∀ k : Conv T, Layer.forward E x ((⟨.conv k, mb⟩ : Layer T), r) = ((Conv.forward x k).1, ⟨.conv (Conv.forward x k).2, mb⟩, r) :=
      fun _ => rfl
    rw [ef, ef]
    unfold Conv.forward
    simp only [Mut.get_bind]
    by_cases h4 : x.shape.rank ≠ 4
    · simp only [if_pos h4]
      exact ⟨rfl, rfl, rfl, by trivial, by trivial, fun y hy => by cases hy⟩
    · simp only [if_neg h4]
      rcases hc : x.shape.get 1 with e | c
      · exact ⟨rfl, rfl, rfl, by trivial, by trivial, fun y hy => by cases hy⟩
      · simp only [Mut.lift_ok_bind]
        by_cases h5 : c ≠ b1
        · simp only [if_pos h5]
          exact ⟨rfl, rfl, rfl, by trivial, by trivial, fun y hy => by cases hy⟩
        · simp only [if_neg h5]
          exact ⟨rfl, rfl, rfl, by trivial, by trivial, fun y hy => ⟨⟨rfl, rfl⟩, fun _ => correlate_rank hy⟩⟩
  case flatten a b =>
    obtain ⟨i⟩ := a
    obtain ⟨i'⟩ := b
    obtain ⟨-, rfl⟩ := h
    have himg : images = true := hp.1
    have hr := hx himg
    have e : ∀ k : Flatten, Flatten.forward x k = (x.shape.get 0 >>= fun n => x.reshaped [n, toInt32 (x.shape.size / toSizeT n : Nat)], ⟨some x.shape⟩) := by
      intro k
      unfold Flatten.forward
      rw [if_neg (by omega), if_neg (by omega), Mut.modify_bind]
      cases x.shape.get 0 <;> rfl
    have ef : ∀ k : Flatten, Layer.forward E x ((⟨.flatten k, mb⟩ : Layer T), r) = ((Flatten.forward x k).1, ⟨.flatten (Flatten.forward x k).2, mb⟩, r) := fun _ => rfl
    rw [ef, ef, e, e]
    exact ⟨rfl, rfl, rfl, rfl, rfl, fun y _ => ⟨⟨rfl, rfl⟩, fun h => by cases h⟩⟩
  case maxPool a b =>
    obtain ⟨a1, a2, a3, a4, i⟩ := a
    obtain ⟨b1, b2, b3, b4, i'⟩ := b
    simp only [MaxPool.mk.injEq, and_true] at h
    obtain ⟨⟨rfl, rfl, rfl, rfl⟩, rfl⟩ := h
    have ef : ∀ k : MaxPool T, Layer.forward E x ((⟨.maxPool k, mb⟩ : Layer T), r) =
        ((MaxPool.forward x k).1, ⟨.maxPool (MaxPool.forward x k).2, mb⟩, r) := fun _ => rfl
    rw [ef, ef]
    unfold MaxPool.forward
    by_cases h4 : x.shape.rank ≠ 4
    · rw [if_pos h4]
      exact ⟨rfl, rfl, rfl, by trivial, by trivial, fun y hy => by cases hy⟩
    · rw [if_neg h4]
      exact ⟨rfl, rfl, rfl, rfl, rfl, fun y hy => ⟨⟨rfl, rfl⟩, fun _ => pool_rank hy⟩⟩
  case activation a b =>
    obtain ⟨a1, i⟩ := a
    obtain ⟨b1, i'⟩ := b
    simp only [ActLayer.mk.injEq, and_true] at h
    obtain ⟨rfl, rfl⟩ := h
    refine ⟨rfl, rfl, rfl, rfl, rfl, fun y hy => ⟨⟨rfl, rfl⟩, fun ho => ?_⟩⟩
    have hy : b1.forward x = .ok y := hy
    have key : ∀ f : T → T, x.apply f = .ok y → y.shape = x.shape := by
      intro f hf
      obtain ⟨xs, -, hf⟩ := bind_ok hf
      cases hf
      rfl
    cases b1 <;> first | (cases ho; done) | (rw [key _ hy]; exact hx ho)
  case batchNorm => exact hp.elim
  case dropout => exact hp.elim

theorem forwardLayers_caches (E : Engine ρ T) (r : ρ) (as : List (Layer T)) : ∀ (bs : List (Layer T)) (images : Bool) (x : Tensor T),
    (images = true → x.shape.rank = 4) → bs.map sansCaches = as.map sansCaches → Stateless images as →
    (forwardLayers E bs x r).1 = (forwardLayers E as x r).1 ∧
    (forwardLayers E as x r).2.1.map sansCaches = as.map sansCaches ∧
    (forwardLayers E bs x r).2.1.map sansCaches = as.map sansCaches ∧
    (forwardLayers E as x r).2.2 = r ∧ (forwardLayers E bs x r).2.2 = r ∧
    ∀ y, (forwardLayers E as x r).1 = .ok y → List.Forall₂ SameButGrads (forwardLayers E as x r).2.1 (forwardLayers E bs x r).2.1 := by
  induction as with
  | nil =>
    intro bs images x hx h hp
    obtain rfl : bs = [] := by simpa using h
    exact ⟨rfl, rfl, rfl, rfl, rfl, fun y _ => .nil⟩
  | cons a as ih =>
    intro bs images x hx h hp
    obtain _ | ⟨b, bs⟩ := bs
    · cases h
    rw [List.map_cons, List.map_cons, List.cons.injEq] at h
    have hp1 : Stateless images [a] := by
      obtain ⟨kind, mode⟩ := a
      cases kind with
      | activation k =>
        obtain ⟨k, i⟩ := k
        cases k <;> trivial
      | flatten k => exact ⟨hp.1, trivial⟩
      | batchNorm k => exact hp
      | dropout k => exact hp
      | fc k => trivial
      | conv k => trivial
      | maxPool k => trivial
    obtain ⟨h1, h2, h3, h4, h5, h6⟩ := forward_caches E images x hx a b h.1 hp1 r
    unfold forwardLayers
    rcases ha : Layer.forward E x (a, r) with ⟨ra, a', r1⟩
    rcases hb : Layer.forward E x (b, r) with ⟨rb, b', r2⟩
    rw [ha] at h1 h2 h4 h6
    rw [hb] at h1 h3 h5 h6
    simp only at h1 h2 h3 h4 h5 h6
    subst h1 h4 h5
    cases rb with
    | error e =>
      refine ⟨rfl, ?_, ?_, rfl, rfl, fun y hy => by cases hy⟩
      · simp only [List.map_cons, h2]
      · simp only [List.map_cons, h3, h.2]
    | ok y =>
      obtain ⟨h6, h7⟩ := h6 y rfl
      obtain ⟨k1, k2, k3, k4, k5, k6⟩ := ih bs (outImages images a) y h7 h.2 (plain_tail hp)
      refine ⟨k1, ?_, ?_, k4, k5, fun z hz => .cons h6 (k6 z hz)⟩
      · simp only [List.map_cons, h2, k2]
      · simp only [List.map_cons, h3, k3]

/-- `backward` with and without old gradients. -/
theorem backward_caches (g : Tensor T) (a b : Layer T) (h : SameButGrads a b) :
    (Layer.backward g b).1 = (Layer.backward g a).1 ∧ sansCaches (Layer.backward g a).2 = sansCaches a ∧
    sansCaches (Layer.backward g b).2 = sansCaches a ∧ ∀ y, (Layer.backward g a).1 = .ok y → (Layer.backward g b).2 = (Layer.backward g a).2 := by
  obtain ⟨ka, ma⟩ := a
  obtain ⟨kb, mb⟩ := b
  obtain ⟨rfl, h⟩ := h
  cases ka <;> cases kb <;> simp only at h
  case fc a b =>
    obtain ⟨w, bi, i, wg, bg⟩ := a
    obtain ⟨w', bi', i', wg', bg'⟩ := b
    obtain ⟨rfl, rfl, rfl⟩ := h
    have ef : ∀ k : FC T, Layer.backward g (⟨.fc k, mb⟩ : Layer T) = ((FC.backward g k).1, ⟨.fc (FC.backward g k).2, mb⟩) := fun _ => rfl
    rw [ef, ef]
    unfold FC.backward
    simp only [Mut.get_bind]
    cases i' with
    | none => exact ⟨rfl, rfl, rfl, fun y hy => by cases hy⟩
    | some x =>
      simp only
      rcases FC.ensure2D x with e | x2
      · exact ⟨rfl, rfl, rfl, fun y hy => by cases hy⟩
      simp only [Mut.lift_ok_bind]
      rcases FC.ensure2D g with e | g2
      · exact ⟨rfl, rfl, rfl, fun y hy => by cases hy⟩
      simp only [Mut.lift_ok_bind]
      rcases FC.weightGrad x2 g2 with e | wg
      · exact ⟨rfl, rfl, rfl, fun y hy => by cases hy⟩
      simp only [Mut.lift_ok_bind, Mut.modify_bind]
      rcases FC.biasGrad bi' g2 with e | bg
      · exact ⟨rfl, rfl, rfl, fun y hy => by cases hy⟩
      exact ⟨rfl, rfl, rfl, fun y hy => rfl⟩
  case conv a b =>
    obtain ⟨a1, a2, a3, a4, a5, a6, a7, w, bi, i, wg, bg⟩ := a
    obtain ⟨b1, b2, b3, b4, b5, b6, b7, w', bi', i', wg', bg'⟩ := b
    simp only [Conv.mk.injEq, and_true] at h
    obtain ⟨rfl, rfl, rfl, rfl, rfl, rfl, rfl, rfl, rfl, rfl⟩ := h
    have ef : ∀ k : Conv T, Layer.backward g (⟨.conv k, mb⟩ : Layer T) = ((Conv.backward g k).1, ⟨.conv (Conv.backward g k).2, mb⟩) := fun _ => rfl
    rw [ef, ef]
    unfold Conv.backward
    simp only [Mut.get_bind]
    cases i' with
    | none => exact ⟨rfl, rfl, rfl, fun y hy => by cases hy⟩
    | some x =>
      simp only [Mut.modify_bind]
      have e1 : ∀ wg bg : Option (Tensor T), Conv.biasGrad ⟨b1, b2, b3, b4, b5, b6, b7, w', bi', some x, wg, bg⟩ g =
        Conv.biasGrad ⟨b1, b2, b3, b4, b5, b6, b7, w', bi', none, none, none⟩ g := fun _ _ => rfl
      have e2 : ∀ wg bg : Option (Tensor T), Conv.weightGrad ⟨b1, b2, b3, b4, b5, b6, b7, w', bi', some x, wg, bg⟩ x g =
        Conv.weightGrad ⟨b1, b2, b3, b4, b5, b6, b7, w', bi', none, none, none⟩ x g := fun _ _ => rfl
      simp only [e1, e2]
      rcases Conv.biasGrad ⟨b1, b2, b3, b4, b5, b6, b7, w', bi', none, none, none⟩ g with e | bg
      · exact ⟨rfl, rfl, rfl, fun y hy => by cases hy⟩
      simp only [Mut.lift_ok_bind, Mut.modify_bind]
      rcases Conv.weightGrad ⟨b1, b2, b3, b4, b5, b6, b7, w', bi', none, none, none⟩ x g with e | wg
      · exact ⟨rfl, rfl, rfl, fun y hy => by cases hy⟩
      exact ⟨rfl, rfl, rfl, fun y hy => rfl⟩
  case flatten a b => subst h; exact ⟨rfl, rfl, rfl, fun _ _ => rfl⟩
  case maxPool a b =>
    subst h
    have ef : Layer.backward g (⟨.maxPool b, mb⟩ : Layer T) = ((MaxPool.backward g b).1, ⟨.maxPool (MaxPool.backward g b).2, mb⟩) := rfl
    have hs : (MaxPool.backward g b).2 = b := by
      unfold MaxPool.backward
      rw [Mut.get_bind]
      cases b.input <;> rfl
    rw [ef, hs]
    exact ⟨rfl, rfl, rfl, fun _ _ => rfl⟩
  case activation a b =>
    subst h
    have ef : Layer.backward g (⟨.activation b, mb⟩ : Layer T) = ((ActLayer.backward g b).1, ⟨.activation (ActLayer.backward g b).2, mb⟩) := rfl
    have hs : (ActLayer.backward g b).2 = b := by
      unfold ActLayer.backward
      rw [Mut.get_bind]
      cases derefOpt b.input <;> rfl
    rw [ef, hs]
    exact ⟨rfl, rfl, rfl, fun _ _ => rfl⟩

theorem sameButGrads_caches {a b : Layer T} (h : SameButGrads a b) : sansCaches b = sansCaches a := by
  obtain ⟨ka, ma⟩ := a
  obtain ⟨kb, mb⟩ := b
  obtain ⟨rfl, h⟩ := h
  cases ka <;> cases kb <;> simp only at h
  case fc a b =>
    show (⟨.fc ⟨b.weights, b.biases, none, none, none⟩, mb⟩ : Layer T) = ⟨.fc ⟨a.weights, a.biases, none, none, none⟩, mb⟩
    rw [h.1, h.2.1]
  case conv a b =>
    have := congrArg (fun k : Conv T => (⟨.conv { k with input := none }, mb⟩ : Layer T)) h
    exact this
  case flatten a b => subst h; rfl
  case maxPool a b => subst h; rfl
  case activation a b => subst h; rfl

theorem backwardLayers_caches {as bs : List (Layer T)} (h : List.Forall₂ SameButGrads as bs) : ∀ g : Tensor T,
    (backwardLayers bs g).1 = (backwardLayers as g).1 ∧ (backwardLayers as g).2.map sansCaches = as.map sansCaches ∧
    (backwardLayers bs g).2.map sansCaches = as.map sansCaches ∧
    ∀ y, (backwardLayers as g).1 = .ok y → (backwardLayers bs g).2 = (backwardLayers as g).2 := by
  induction h with
  | nil => intro g; exact ⟨rfl, rfl, rfl, fun _ _ => rfl⟩
  | @cons a b as bs hab hrest ih =>
    intro g
    obtain ⟨h1, h2, h3, h4⟩ := ih g
    unfold backwardLayers
    rcases ha : backwardLayers as g with ⟨ra, as'⟩
    rcases hb : backwardLayers bs g with ⟨rb, bs'⟩
    rw [ha, hb] at h1 h4
    rw [ha] at h2
    rw [hb] at h3
    simp only at h1 h2 h3 h4
    subst h1
    cases rb with
    | error e =>
      refine ⟨rfl, ?_, ?_, fun y hy => by cases hy⟩
      · simp only [List.map_cons, h2]
      · simp only [List.map_cons, h3, sameButGrads_caches hab]
    | ok g' =>
      obtain ⟨k1, k2, k3, k4⟩ := backward_caches g' a b hab
      refine ⟨k1, ?_, ?_, fun y hy => ?_⟩
      · simp only [List.map_cons, h2, k2]
      · simp only [List.map_cons, h3, k3]
      · simp only [k4 y hy, h4 g' rfl]

theorem plain_caches (ls : List (Layer T)) : ∀ images, Stateless images (ls.map sansCaches) ↔ Stateless images ls := by
  induction ls with
  | nil => intro images; exact Iff.rfl
  | cons l ls ih =>
    intro images
    obtain ⟨kind, mode⟩ := l
    cases kind with
    | activation k =>
      obtain ⟨k, i⟩ := k
      cases k <;> exact ih _
    | flatten k => exact and_congr Iff.rfl (ih _)
    | batchNorm k => exact Iff.rfl
    | dropout k => exact Iff.rfl
    | fc k => exact ih _
    | conv k => exact ih _
    | maxPool k => exact ih _

theorem plain_mode (mode : Bool) (ls : List (Layer T)) : ∀ images, Stateless images (ls.map (Layer.setTrainingMode mode)) ↔ Stateless images ls := by
  induction ls with
  | nil => intro images; exact Iff.rfl
  | cons l ls ih =>
    intro images
    obtain ⟨kind, mode⟩ := l
    cases kind with
    | activation k =>
      obtain ⟨k, i⟩ := k
      cases k <;> exact ih _
    | flatten k => exact and_congr Iff.rfl (ih _)
    | batchNorm k => exact Iff.rfl
    | dropout k => exact Iff.rfl
    | fc k => exact ih _
    | conv k => exact ih _
    | maxPool k => exact ih _

theorem plain_cons_updated {l l' : Layer T} (h : Updated l l') {ls ls' : List (Layer T)} (hls : ∀ images, Stateless images ls → Stateless images ls') :
    ∀ images, Stateless images (l :: ls) → Stateless images (l' :: ls') := by
  intro images hp
  cases h with
  | fc k mode w b hw hb => exact hls _ hp
  | conv k mode w b hw hb => exact hls _ hp
  | batchNorm k mode w b hw hb => exact hp.elim
  | unchanged l =>
    obtain ⟨kind, mode⟩ := l
    cases kind with
    | activation k =>
      obtain ⟨k, i⟩ := k
      cases k <;> exact hls _ hp
    | flatten k => exact ⟨hp.1, hls _ hp.2⟩
    | batchNorm k => exact hp.elim
    | dropout k => exact hp.elim
    | fc k => exact hls _ hp
    | conv k => exact hls _ hp
    | maxPool k => exact hls _ hp

theorem updateLayers_plain (ls : List (Layer T)) : ∀ (i : Nat) (opt : Optimizer (Nat × Bool) T) (images : Bool),
    Stateless images ls → Stateless images (updateLayers i ls opt).2.1 := by
  induction ls with
  | nil => intro i opt images h; exact h
  | cons l ls ih =>
    intro i opt images h
    have hu := C56_layer_changes (addr_ne i) l opt
    unfold updateLayers
    rcases hv : Layer.updateWeights (i, false) (i, true) (l, opt) with ⟨e | u, l', opt'⟩
    · rw [hv] at hu
      exact plain_cons_updated hu (fun _ h => h) images h
    · rw [hv] at hu
      exact plain_cons_updated hu (fun im h => ih (i + 1) opt' im h) images h

theorem updateWeights_plain (net : Net ρ T) (h : Stateless false net.layers) : Stateless false (updateWeights net).2.layers := by
  unfold updateWeights
  split
  · exact h
  · exact h
  · next l ls opt h1 h2 =>
    rw [h1] at h
    exact updateLayers_plain (l :: ls) 0 opt false h

/-- Models of plain layers that differ at most in caches. -/
def CacheRel (a b : Net ρ T) : Prop := SameButCaches a b ∧ Stateless false a.layers

theorem predict_caches (E : Engine ρ T) (x : Tensor T) {a b : Net ρ T} (h : CacheRel a b) :
    (predict E x b).1 = (predict E x a).1 ∧ CacheRel (predict E x a).2 (predict E x b).2 ∧
    SameButCaches a (predict E x a).2 ∧
    ∀ y, (predict E x a).1 = .ok y → List.Forall₂ SameButGrads (predict E x a).2.layers (predict E x b).2.layers := by
  obtain ⟨⟨h1, h2, h3, h4⟩, hp⟩ := h
  have hr : b.rng = a.rng := h4
  obtain ⟨k1, k2, k3, k4, k5, k6⟩ := forwardLayers_caches E a.rng a.layers b.layers false x (fun h => by cases h) h1 hp
  have eb : predict E x b = ((forwardLayers E b.layers x a.rng).1, { b with
      layers := (forwardLayers E b.layers x a.rng).2.1, rng := (forwardLayers E b.layers x a.rng).2.2 }) := by rw [← hr]; rfl
  have ea : predict E x a = ((forwardLayers E a.layers x a.rng).1, { a with
      layers := (forwardLayers E a.layers x a.rng).2.1, rng := (forwardLayers E a.layers x a.rng).2.2 }) := rfl
  rw [eb, ea]
  refine ⟨k1, ⟨⟨k3.trans k2.symm, h2, h3, k5.trans k4.symm⟩, ?_⟩, ⟨k2, rfl, rfl, k4⟩, k6⟩
  show Stateless false (forwardLayers E a.layers x a.rng).2.1
  rw [← plain_caches, k2, plain_caches]
  exact hp

theorem netBackward_caches (g : Tensor T) {a b : Net ρ T} (h : List.Forall₂ SameButGrads a.layers b.layers) (ho : b.optimizer = a.optimizer)
    (hl : b.loss = a.loss) (hr : b.rng = a.rng) (hp : Stateless false a.layers) :
    (backward g b).1 = (backward g a).1 ∧ CacheRel (backward g a).2 (backward g b).2 ∧ SameButCaches a (backward g a).2 ∧
    ∀ y, (backward g a).1 = .ok y → (backward g b).2 = (backward g a).2 := by
  obtain ⟨k1, k2, k3, k4⟩ := backwardLayers_caches h g
  refine ⟨k1, ⟨⟨k3.trans k2.symm, ho, hl, hr⟩, ?_⟩, ⟨k2, rfl, rfl, rfl⟩, fun y hy => ?_⟩
  · show Stateless false (backwardLayers a.layers g).2
    rw [← plain_caches, k2, plain_caches]
    exact hp
  · show ({ b with layers := (backwardLayers b.layers g).2 } : Net ρ T) = { a with layers := (backwardLayers a.layers g).2 }
    rw [k4 y hy]
    obtain ⟨bl, bL, bo, br⟩ := b
    obtain ⟨al, aL, ao, ar⟩ := a
    simp only at ho hl hr
    subst ho hl hr
    rfl

theorem cacheRel_refl {a : Net ρ T} (h : Stateless false a.layers) : CacheRel a a := ⟨⟨rfl, rfl, rfl, rfl⟩, h⟩

/-- Sessions whose models differ at most in caches. -/
def SessionRel (s s' : Session ρ T) : Prop := CacheRel s.net s'.net ∧ s'.total = s.total ∧ s'.printed = s.printed

/-- Running on related sessions: same outcome, related afterwards. -/
def Agrees {α : Type} (m : Mut (Session ρ T) α) : Prop := ∀ s s', SessionRel s s' → (m s').1 = (m s).1 ∧ SessionRel (m s).2 (m s').2

theorem agrees_bind {α β : Type} {m : Mut (Session ρ T) α} {f : α → Mut (Session ρ T) β} (hm : Agrees m) (hf : ∀ a, Agrees (f a)) :
    Agrees (m >>= f) := by
  intro s s' h
  rw [Mut.bind_apply, Mut.bind_apply]
  obtain ⟨h1, h2⟩ := hm s s' h
  rcases ha : m s with ⟨ra, sa⟩
  rcases hb : m s' with ⟨rb, sb⟩
  rw [ha, hb] at h1 h2
  simp only at h1 h2
  subst h1
  cases rb with
  | error e => exact ⟨rfl, h2⟩
  | ok a => exact hf a sa sb h2

theorem onNet_bind {α β : Type} (m : Mut (Net ρ T) α) (f : α → Mut (Session ρ T) β) (n : Net ρ T) (t : Tensor T) (p : List (Tensor T)) :
    (Session.onNet m >>= f) ⟨n, t, p⟩ = match m n with
      | (.ok a, n') => f a ⟨n', t, p⟩
      | (.error e, n') => (.error e, ⟨n', t, p⟩) := by
  rw [Mut.bind_apply]
  unfold Session.onNet
  rcases m n with ⟨e | a, n'⟩ <;> rfl

theorem sample_agrees (E : Engine ρ T) (x : Tensor T) (targets : List (Tensor T)) (i : Nat) : Agrees (trainSample E x targets i) := by
  rintro ⟨a, t, p⟩ ⟨b, t', p'⟩ ⟨h, h1, h2⟩
  simp only at h h1 h2
  subst h1 h2
  obtain ⟨k1, k2, k3, k4⟩ := predict_caches E x h
  unfold trainSample
  rw [onNet_bind, onNet_bind]
  rcases ha : predict E x a with ⟨ra, a1⟩
  rcases hb : predict E x b with ⟨rb, b1⟩
  rw [ha] at k1 k2 k3 k4
  rw [hb] at k1 k2 k4
  simp only at k1 k2 k3 k4
  subst k1
  cases rb with
  | error e => exact ⟨rfl, k2, rfl, rfl⟩
  | ok y =>
    have kg := k4 y rfl
    obtain ⟨⟨c1, c2, c3, c4⟩, hp⟩ := k2
    simp only [Mut.get_bind]
    rw [c3]
    rcases derefOpt a1.loss with e | L
    · exact ⟨rfl, ⟨⟨c1, c2, c3, c4⟩, hp⟩, rfl, rfl⟩
    simp only [Mut.lift_ok_bind]
    rcases rd targets (i : Int) with e | tg
    · exact ⟨rfl, ⟨⟨c1, c2, c3, c4⟩, hp⟩, rfl, rfl⟩
    simp only [Mut.lift_ok_bind]
    rcases L.compute y tg with e | v
    · exact ⟨rfl, ⟨⟨c1, c2, c3, c4⟩, hp⟩, rfl, rfl⟩
    simp only [Mut.lift_ok_bind]
    rcases Tensor.addAssign t' (some v) with e | tot
    · exact ⟨rfl, ⟨⟨c1, c2, c3, c4⟩, hp⟩, rfl, rfl⟩
    simp only [Mut.lift_ok_bind, Mut.modify_bind]
    rcases L.gradient y tg with e | g
    · exact ⟨rfl, ⟨⟨c1, c2, c3, c4⟩, hp⟩, rfl, rfl⟩
    simp only [Mut.lift_ok_bind]
    obtain ⟨d1, d2, d3, d4⟩ := netBackward_caches g kg c2 c3 c4 hp
    rw [onNet_bind, onNet_bind]
    rcases ha2 : backward g a1 with ⟨ra2, a2⟩
    rcases hb2 : backward g b1 with ⟨rb2, b2⟩
    rw [ha2] at d1 d2 d3 d4
    rw [hb2] at d1 d2 d4
    simp only at d1 d2 d3 d4
    subst d1
    cases rb2 with
    | error e => exact ⟨rfl, d2, rfl, rfl⟩
    | ok g' =>
      have := d4 g' rfl
      subst this
      exact ⟨rfl, cacheRel_refl (updateWeights_plain _ d2.2), rfl, rfl⟩

theorem samples_agrees (E : Engine ρ T) (targets : List (Tensor T)) (xs : List (Tensor T)) : ∀ i, Agrees (trainSamples E targets i xs) := by
  induction xs with
  | nil => intro i s s' h; exact ⟨rfl, h⟩
  | cons x xs ih => intro i; exact agrees_bind (sample_agrees E x targets i) fun _ => ih (i + 1)

theorem epoch_agrees (E : Engine ρ T) (inputs targets : List (Tensor T)) : Agrees (trainEpoch E inputs targets) := by
  unfold trainEpoch
  refine agrees_bind (fun s s' h => ⟨rfl, h⟩) fun shape => ?_
  refine agrees_bind (fun s s' h => ⟨rfl, h.1, rfl, h.2.2⟩) fun _ => ?_
  refine agrees_bind (samples_agrees E targets inputs 0) fun _ => ?_
  intro s s' h
  rw [Mut.get_bind, Mut.get_bind, h.2.1]
  rcases Tensor.divScalar s.total (inputs.length : T) with e | rep
  · exact ⟨rfl, h⟩
  · refine ⟨rfl, h.1, h.2.1, ?_⟩
    show s'.printed ++ [rep] = s.printed ++ [rep]
    rw [h.2.2]

theorem train_agrees (E : Engine ρ T) (inputs targets : List (Tensor T)) (n : Int) : Agrees (train E inputs targets n) := by
  unfold train
  induction n.toNat with
  | zero => intro s s' h; exact ⟨rfl, h⟩
  | succ n ih =>
    rw [Mut.forN_succ]
    exact agrees_bind ih fun _ => epoch_agrees E inputs targets

theorem predictAll_caches (E : Engine ρ T) (xs : List (Tensor T)) : ∀ {a b : Net ρ T}, CacheRel a b →
    (predictAll E xs b).1 = (predictAll E xs a).1 ∧ CacheRel (predictAll E xs a).2 (predictAll E xs b).2 := by
  induction xs with
  | nil => intro a b h; exact ⟨rfl, h⟩
  | cons x xs ih =>
    intro a b h
    obtain ⟨k1, k2, -, -⟩ := predict_caches E x h
    unfold predictAll
    rw [Mut.bind_apply, Mut.bind_apply]
    rcases ha : predict E x a with ⟨ra, a1⟩
    rcases hb : predict E x b with ⟨rb, b1⟩
    rw [ha, hb] at k1 k2
    simp only at k1 k2
    subst k1
    cases rb with
    | error e => exact ⟨rfl, k2⟩
    | ok y =>
      obtain ⟨j1, j2⟩ := ih k2
      simp only
      rw [Mut.bind_apply, Mut.bind_apply]
      rcases ha2 : predictAll E xs a1 with ⟨ra2, a2⟩
      rcases hb2 : predictAll E xs b1 with ⟨rb2, b2⟩
      rw [ha2, hb2] at j1 j2
      simp only at j1 j2
      subst j1
      cases rb2 with
      | error e => exact ⟨rfl, j2⟩
      | ok ys => exact ⟨rfl, j2⟩

theorem api_caches (E : Engine ρ T) (u : Api T) (hu : Fresh u) {a b : Net ρ T} (h : CacheRel a b) :
    (u.run E b).1 = (u.run E a).1 ∧ CacheRel (u.run E a).2 (u.run E b).2 := by
  cases u with
  | train xs ys n =>
    obtain ⟨k1, k2, k3, k4⟩ := train_agrees E xs ys n ⟨a, ofFn [1] fun _ => 0, []⟩ ⟨b, ofFn [1] fun _ => 0, []⟩ ⟨h, rfl, rfl⟩
    refine ⟨?_, k2⟩
    show ((train E xs ys n ⟨b, ofFn [1] fun _ => 0, []⟩).1.map (fun _ => []), (train E xs ys n ⟨b, ofFn [1] fun _ => 0, []⟩).2.printed) =
      ((train E xs ys n ⟨a, ofFn [1] fun _ => 0, []⟩).1.map (fun _ => []), (train E xs ys n ⟨a, ofFn [1] fun _ => 0, []⟩).2.printed)
    rw [k1, k4]
  | predict x =>
    obtain ⟨k1, k2, -, -⟩ := predict_caches E x h
    refine ⟨?_, k2⟩
    show ((predict E x b).1.map (fun y => [y]), []) = ((predict E x a).1.map (fun y => [y]), [])
    rw [k1]
  | predictAll xs =>
    obtain ⟨k1, k2⟩ := predictAll_caches E xs h
    refine ⟨?_, k2⟩
    show ((predictAll E xs b).1, []) = ((predictAll E xs a).1, [])
    rw [k1]
  | backward g => exact hu.elim
  | updateWeights => exact hu.elim
  | addLayer l => exact hu.elim
  | mode m =>
    refine ⟨rfl, ⟨?_, h.1.2.1, h.1.2.2.1, h.1.2.2.2⟩, (plain_mode m _ _).2 h.2⟩
    have := congrArg (List.map (Layer.setTrainingMode m)) h.1.1
    rw [List.map_map, List.map_map] at this
    show (b.layers.map (Layer.setTrainingMode m)).map sansCaches = (a.layers.map (Layer.setTrainingMode m)).map sansCaches
    rw [List.map_map, List.map_map]
    exact this
  | compile L opt => exact ⟨rfl, ⟨h.1.1, rfl, rfl, h.1.2.2.2⟩, h.2⟩

theorem alone_caches (E : Engine ρ T) (us : List (Api T)) : (∀ u ∈ us, Fresh u) → ∀ {a b : Net ρ T}, CacheRel a b →
    (alone E us b).1 = (alone E us a).1 ∧ CacheRel (alone E us a).2 (alone E us b).2 := by
  induction us with
  | nil => intro _ a b h; exact ⟨rfl, h⟩
  | cons u us ih =>
    intro hu a b h
    obtain ⟨k1, k2⟩ := api_caches E u (hu u (by simp)) h
    obtain ⟨j1, j2⟩ := ih (fun v hv => hu v (by simp [hv])) k2
    refine ⟨?_, j2⟩
    show (u.run E b).1 :: (alone E us (u.run E b).2).1 = (u.run E a).1 :: (alone E us (u.run E a).2).1
    rw [k1, j1]

theorem sameButCaches_trans {a b c : Net ρ T} (h1 : SameButCaches a b) (h2 : SameButCaches b c) : SameButCaches a c :=
  ⟨h2.1.trans h1.1, h2.2.1.trans h1.2.1, h2.2.2.1.trans h1.2.2.1, h2.2.2.2.trans h1.2.2.2⟩

theorem sameButCaches_learned {a b : Net ρ T} (h : SameButCaches a b) : SameLearned a b := by
  refine ⟨?_, h.2.1, h.2.2.1⟩
  have e : ∀ l : Layer T, params (sansCaches l) = params l := by
    intro l
    obtain ⟨kind, mode⟩ := l
    cases kind <;> rfl
  have := congrArg (List.map params) h.1
  rw [List.map_map, List.map_map, show (params ∘ sansCaches : Layer T → _) = params from funext e] at this
  exact this

theorem stepFails_caches {E : Engine ρ T} {x : Tensor T} {y : Option (Tensor T)} {net net' : Net ρ T} {e : Err}
    (h : StepFails E x y net e net') (he : e.isException) (hp : Stateless false net.layers) : SameButCaches net net' := by
  obtain ⟨-, k2, k3, k4⟩ := predict_caches E x (cacheRel_refl hp)
  cases h with
  | forward h => rw [h] at k3; exact k3
  | uncompiled h hl => cases he
  | noTarget h hl => cases he
  | loss h hl hc => rw [h] at k3; exact k3
  | gradient h hl hc hg => rw [h] at k3; exact k3
  | @backward y _ pred net1 L v g _ _ h hl hc hg hb =>
    rw [h] at k2 k3 k4
    obtain ⟨-, -, d3, -⟩ := netBackward_caches g (k4 pred rfl) rfl rfl rfl k2.2
    rw [hb] at d3
    exact sameButCaches_trans k3 d3
  | update h hl hc hg hb hu =>
    rw [update_after_backward hb hu] at he
    cases he

theorem stepOk_plain {E : Engine ρ T} {x y : Tensor T} {net net' : Net ρ T} {v : T} (h : StepOk E x y net net' v)
    (hp : Stateless false net.layers) : Stateless false net'.layers := by
  obtain ⟨pred, net1, L, g, g', net2, h1, -, -, -, h5, h6⟩ := h
  obtain ⟨-, k2, k3, k4⟩ := predict_caches E x (cacheRel_refl hp)
  rw [h1] at k2 k4
  obtain ⟨-, d2, -, -⟩ := netBackward_caches g (k4 pred rfl) rfl rfl rfl k2.2
  rw [h5] at d2
  have := updateWeights_plain net2 d2.2
  rw [h6] at this
  exact this

theorem steps_plain {E : Engine ρ T} {ps : List (Tensor T × Tensor T)} {net net' : Net ρ T} {vs : List T} (h : Steps E ps net net' vs) :
    Stateless false net.layers → Stateless false net'.layers := by
  induction h with
  | nil net => exact id
  | cons h hs ih => exact fun hp => ih (stepOk_plain h hp)

theorem epochs_plain {E : Engine ρ T} {ps : List (Tensor T × Tensor T)} {n : Nat} {net net' : Net ρ T} {rs : List (Tensor T)}
    (h : Epochs E ps n net net' rs) : Stateless false net.layers → Stateless false net'.layers := by
  induction h with
  | zero net => exact id
  | succ h hs ih => exact fun hp => ih (steps_plain h hp)

/-- Whoever catches the exception can go on as if the failing sample had not been there: for models without batch normalisation and
dropout (and with flatten only behind images), every later sequence of `train`, `predict`, `compile` and mode calls returns, throws
and prints exactly what it would on the model trained on the samples before the failing one only, and learns the same. -/
theorem C92_resume_partial (E : Engine ρ T) (inputs targets : List (Tensor T)) (epochs : Int) (net net' : Net ρ T) (rs : List (Tensor T))
    (e : Err) (h : trainCall E inputs targets epochs net = (.error e, net', rs)) (he : e.isException) (hp : Stateless false net.layers) :
    ∃ m k net1 net2 vs, m < epochs.toNat ∧ k ≤ inputs.length ∧ Epochs E (inputs.zip targets) m net net1 rs ∧
      Steps E ((inputs.take k).zip targets) net1 net2 vs ∧
      ∀ us : List (Api T), (∀ u ∈ us, Fresh u) → (alone E us net').1 = (alone E us net2).1 ∧
        SameLearned (alone E us net2).2 (alone E us net').2 := by
  have fin : ∀ {a b : Net ρ T}, SameButCaches a b → Stateless false a.layers → ∀ us : List (Api T), (∀ u ∈ us, Fresh u) →
      (alone E us b).1 = (alone E us a).1 ∧ SameLearned (alone E us a).2 (alone E us b).2 := by
    intro a b hab hp us hu
    obtain ⟨k1, k2⟩ := alone_caches E us hu ⟨hab, hp⟩
    exact ⟨k1, sameButCaches_learned k2.1⟩
  obtain ⟨m, net1, net2, vs, hm, hep, ⟨k, x, hx, hs, hf⟩ | ⟨hs, -, -, rfl⟩⟩ := C55_train_fails E inputs targets epochs net net' rs e h
  · have hp2 := steps_plain hs (epochs_plain hep hp)
    exact ⟨m, k, net1, net2, vs, hm, (List.getElem?_eq_some_iff.1 hx).1.le, hep, hs, fin (stepFails_caches hf he hp2) hp2⟩
  · exact ⟨m, inputs.length, net1, net', vs, hm, le_rfl, hep, by rw [List.take_length]; exact hs,
      fin ⟨rfl, rfl, rfl, rfl⟩ (steps_plain hs (epochs_plain hep hp))⟩

end

/-! ### What does remember the failing sample -/

/-- A model whose training fails in the loss, on the first sample. -/
theorem train_loss_fails {ρ : Type} (E : Engine ρ ℝ) (x y p : Tensor ℝ) (net net1 : Net ρ ℝ) (e : Err) (epochs : Int) (h0 : 0 < epochs)
    (hpred : predict E x net = (.ok p, net1)) (hl : net1.loss = some .mse) (he : Loss.mse.compute p y = .error e) :
    trainCall E [x] [y] epochs net = (.error e, net1, []) := by
  unfold trainCall train
  obtain ⟨n, hn⟩ : ∃ n, epochs.toNat = n + 1 := ⟨epochs.toNat - 1, by omega⟩
  have hs : trainSamples E [y] 0 [x] ⟨net, ofFn [1] fun _ => 0, []⟩ = (.error e, ⟨net1, ofFn [1] fun _ => 0, []⟩) := by
    unfold trainSamples trainSample
    rw [Mut.bind_apply, onNet_bind, hpred]
    simp only [Mut.get_bind, hl, derefOpt, Mut.lift_ok_bind]
    rw [show rd [y] ((0 : Nat) : Int) = .ok y from rfl]
    simp only [Mut.lift_ok_bind, he, Mut.lift_error_bind]
  rw [hn, forN_const_succ, Mut.bind_apply, epoch_fails E [x] [y] ⟨net, _, []⟩ hs]

/-- **False for batch normalisation, even in evaluation mode.**  A model with a batch normalisation layer is trained on one batch with
a target of the wrong shape.  `train` throws, but the running statistics have already been moved towards the batch: some input is
predicted differently afterwards (unless the mean of the batch is the running mean already). -/
theorem C92_running_refuted {ρ : Type} (E : Engine ρ ℝ) {N F c : Nat} (hd : Dims [N, F]) (hc : c < F) (f t γ β : List Nat → ℝ)
    {b : List Nat} (hb : Dims b) (hne : [N, F] ≠ b) (hb1 : b.length ≠ 1) (l : BatchNorm ℝ) (M V : Nat → ℝ)
    (hγ : l.gamma = ofFn [1, F] γ) (hβ : l.beta = ofFn [1, F] β) (hh : l.Holds F M V) (heps : 0 < l.epsilon) (hV : 0 ≤ V c)
    (hm0 : 0 ≤ l.momentum) (hm1 : l.momentum < 1) (hγc : γ [0, c] ≠ 0) (hmean : featMean [N, F] f c ≠ M c)
    (net : Net ρ ℝ) (hn : net.layers = [⟨.batchNorm l, true⟩]) (hL : net.loss = some .mse) (epochs : Int) (h0 : 0 < epochs) :
    ∃ e net', trainCall E [ofFn [N, F] f] [ofFn b t] epochs net = (.error e, net', []) ∧ e.isException = true ∧
      ∃ g, (predict E (ofFn [N, F] g) (net'.setTrainingMode false)).1 ≠ (predict E (ofFn [N, F] g) (net.setTrainingMode false)).1 := by
  have hS : BNShape F [N, F] [1, F] := .two N
  have hready : l.Ready F := by
    obtain ⟨rs, hR, hr, -, hm, hv⟩ := hh
    exact ⟨⟨γ, hγ⟩, ⟨β, hβ⟩, ⟨rs, _, _, hR, hr, hm, hv⟩⟩
  obtain ⟨y, l1, hf, -⟩ := C45_training hS hd l hready γ β f hγ hβ heps
  obtain ⟨l', k1, k2, k3, k4, k5⟩ := bn_history (F := F) γ β [⟨true, [N, F], f⟩] l M V
    (by intro c hc; obtain rfl := List.mem_singleton.1 hc; exact ⟨hd, _, hS⟩)
    (Or.inr (by intro c hc _; obtain rfl := List.mem_singleton.1 hc; rfl)) hγ hβ hh
  have hl1 : l' = l1 := by
    have : BNCall.runAll [⟨true, [N, F], f⟩] l = (.ok (), l1) := by
      unfold BNCall.runAll BNCall.runAll
      rw [Mut.bind_apply, hf]
      rfl
    rw [this] at k1
    exact (congrArg Prod.snd k1).symm
  subst hl1
  have hpred : predict E (ofFn [N, F] f) net = (.ok (ofFn [N, F] y), { net with layers := [⟨.batchNorm l', true⟩] }) := by
    unfold predict
    simp only [hn, forwardLayers, Layer.forward, Layer.onKind, hf]
  obtain ⟨e, he, hcomp⟩ := (C29_mismatch hd hb hne (fun h => hb1 h.1) y t).1
  refine ⟨e, _, train_loss_fails E _ _ _ net _ e epochs h0 hpred hL hcomp, he, fun i => M (i.getD 1 0), ?_⟩
  have ev : ∀ (k : BatchNorm ℝ) (n : Net ρ ℝ) (M' V' : Nat → ℝ), k.Holds F M' V' → k.gamma = ofFn [1, F] γ → k.beta = ofFn [1, F] β →
      n.layers = [⟨.batchNorm k, true⟩] → ∀ g, (predict E (ofFn [N, F] g) (n.setTrainingMode false)).1 =
        .ok (ofFn [N, F] fun i => (g i - M' (i.getD 1 0)) / Real.sqrt (V' (i.getD 1 0) + k.epsilon) * γ [0, i.getD 1 0] + β [0, i.getD 1 0]) := by
    intro k n M' V' hk hkγ hkβ hnl g
    unfold predict Net.setTrainingMode
    simp only [hnl, List.map_cons, List.map_nil, Layer.setTrainingMode, forwardLayers, Layer.forward, Layer.onKind,
      bn_eval_holds hS hd k M' V' hk γ β g hkγ hkβ]
  rw [ev l' _ _ _ k5 (k2.trans hγ) (k3.trans hβ) rfl, ev l net M V hh hγ hβ hn, k4]
  intro h
  have hN : 0 < N := hd.pos N (by simp)
  have := ofFn_inj (Except.ok.inj h) (idx := [0, c]) (valid2_iff.2 ⟨0, c, rfl, hN, hc⟩)
  simp only [List.getD_cons_succ, List.getD_cons_zero, sub_self, zero_div, zero_mul, zero_add, BNCall.average, List.filter, runningAvg,
    List.map_cons, List.map_nil, List.foldl_cons, List.foldl_nil, add_eq_right] at this
  have hvar : 0 ≤ featVar [N, F] f c := featVar_nonneg _ _ _
  have hpos : 0 < V c * l.momentum + featVar [N, F] f c * (1 - l.momentum) + l.epsilon := by
    have h1 : 0 ≤ V c * l.momentum := mul_nonneg hV hm0
    have h2 : 0 ≤ featVar [N, F] f c * (1 - l.momentum) := mul_nonneg hvar (by linarith)
    linarith
  rw [mul_eq_zero, div_eq_zero_iff] at this
  rcases this with (h1 | h1) | h1
  · have : (1 - l.momentum) * (featMean [N, F] f c - M c) = 0 := by linarith
    rcases mul_eq_zero.1 this with h2 | h2
    · linarith
    · exact hmean (by linarith)
  · exact (Real.sqrt_pos.2 hpos).ne' h1
  · exact hγc h1

/-- Such a situation exists: a fresh layer of one feature and a batch of two twos. -/
example : ∃ l : BatchNorm ℝ, BatchNorm.new 1 (1 / 1000) (9 / 10) 0 = .ok l ∧ l.gamma = ofFn [1, 1] (fun _ => 1) ∧
    l.beta = ofFn [1, 1] (fun _ => 0) ∧ l.Holds 1 (fun _ => 0) (fun _ => 1) ∧ l.momentum = 9 / 10 ∧ l.epsilon = 1 / 1000 ∧
    featMean [2, 1] (fun _ => 2) 0 ≠ 0 := by
  obtain ⟨l, h1, h2, h3, h4, h5, h6, h7, h8⟩ := C45_constructed 1 ⟨by simp, by simp, by norm_num [sizeMod]⟩ (1 / 1000) (9 / 10) 0
  refine ⟨l, h1, h5, h6, ⟨[1, 1], .row, ⟨by simp, by simp, by norm_num⟩, Or.inl rfl, h7, h8⟩, h4, h3, ?_⟩
  have hi : featureIdx [2, 1] 0 ≠ [] := by decide
  norm_num [featMean, hi]

/-- **False for dropout in training mode**: the failing sample has used up random numbers, so later calls drop other elements. -/
theorem C92_dropout_refuted {ρ : Type} (E : Engine ρ ℝ) (rate : ℝ) (hr : rate ≠ 1) (net : Net ρ ℝ)
    (hn : net.layers = [⟨.dropout { dropoutRate := rate }, true⟩]) (hL : net.loss = some .mse) (epochs : Int) (h0 : 0 < epochs)
    (h1 : ¬ kept rate (E.he 1 net.rng).1) (h2 : kept rate (E.he 1 (E.he 1 net.rng).2).1) :
    ∃ e net', trainCall E [ofFn [1] fun _ => 1] [ofFn [2, 2] fun _ => 0] epochs net = (.error e, net', []) ∧ e.isException = true ∧
      (predict E (ofFn [1] fun _ => 1) net').1 ≠ (predict E (ofFn [1] fun _ => 1) net).1 := by
  classical
  have key : ∀ (l : Dropout ℝ) (s : ρ), l.dropoutRate = rate → ∃ l', l'.dropoutRate = rate ∧ Dropout.forward E true (ofFn [1] fun _ => 1) (l, s) =
      (.ok (ofFn [1] fun _ => if kept rate (E.he 1 s).1 then 1 / (1 - rate) else 0), (l', (E.he 1 s).2)) := by
    intro l s hl
    refine ⟨{ l with mask := some (ofFn [1] (fun i => if l.dropoutRate < cmin (cmax (drawAt E [1].prod (ravel [1] i) s) 0) 1
      then 1 else 0)) }, hl, ?_⟩
    · rw [dropout_forward_training E dims_one (fun _ => 1) l s (createRandom_ofFn E [1] 0 1 s)]
      refine Prod.ext ?_ rfl
      simp only [Except.ok.injEq]
      refine ofFn_congr fun i hi => ?_
      obtain ⟨a, rfl, ha⟩ := valid1_iff.1 hi
      have ha0 : a = 0 := by omega
      subst ha0
      simp only [ravel1, List.prod_cons, List.prod_nil, mul_one, drawAt, engineAfter, kept_iff_cmin, hl]
      split <;> ring
  have step : ∀ (n : Net ρ ℝ) (l : Dropout ℝ), l.dropoutRate = rate → n.layers = [⟨.dropout l, true⟩] → ∃ l', l'.dropoutRate = rate ∧
      predict E (ofFn [1] fun _ => 1) n =
        (.ok (ofFn [1] fun _ => if kept rate (E.he 1 n.rng).1 then 1 / (1 - rate) else 0),
          { n with layers := [⟨.dropout l', true⟩], rng := (E.he 1 n.rng).2 }) := by
    intro n l hl hnl
    obtain ⟨l', hl', hf⟩ := key l n.rng hl
    refine ⟨l', hl', ?_⟩
    unfold predict
    simp only [hnl, forwardLayers, Layer.forward, Layer.onKind, hf]
  obtain ⟨l', hl', e1⟩ := step net _ rfl hn
  obtain ⟨e, he, hcomp⟩ := (C29_mismatch dims_one (b := [2, 2]) ⟨by simp, by simp, by norm_num⟩ (by simp) (by simp)
    (fun _ => if kept rate (E.he 1 net.rng).1 then 1 / (1 - rate) else 0) fun _ => 0).1
  refine ⟨e, _, train_loss_fails E _ _ _ net _ e epochs h0 e1 hL hcomp, he, ?_⟩
  obtain ⟨l2, -, e2⟩ := step { net with layers := [⟨.dropout l', true⟩], rng := (E.he 1 net.rng).2 } l' hl' rfl
  rw [e1, e2, if_neg h1, if_pos h2]
  intro h
  have := ofFn_inj (Except.ok.inj h) (valid1_iff.2 ⟨0, rfl, by omega⟩)
  simp only [div_eq_zero_iff, one_ne_zero, false_or] at this
  exact hr (by linarith)

/-- Such an engine exists. -/
example : ∃ (E : Engine Bool ℝ) (r : Bool), ¬ kept (1 / 2) (E.he 1 r).1 ∧ kept (1 / 2) (E.he 1 (E.he 1 r).2).1 := by
  refine ⟨⟨fun _ => false, fun _ r => (if r then 1 else 0, true)⟩, false, ?_, ?_⟩ <;> norm_num [kept]

theorem stepOk_loss {ρ : Type} {E : Engine ρ ℝ} {x y : Tensor ℝ} {net net' : Net ρ ℝ} {v : ℝ} (h : StepOk E x y net net' v) : net'.loss = net.loss := by
  obtain ⟨pred, net1, L, g, g', net2, h1, -, -, -, h5, h6⟩ := h
  have k1 := (predict_learned E x net).2.2
  have k2 := (backward_learned g net1).2.2
  have k3 := (C56_changes net2).2.1
  rw [h1] at k1
  rw [h5] at k2
  rw [h6] at k3
  exact k3.trans (k2.trans k1)

theorem steps_loss {ρ : Type} {E : Engine ρ ℝ} {ps : List (Tensor ℝ × Tensor ℝ)} {net net' : Net ρ ℝ} {vs : List ℝ}
    (h : Steps E ps net net' vs) : net'.loss = net.loss := by
  induction h with
  | nil net => rfl
  | cons h hs ih => exact ih.trans (stepOk_loss h)

theorem trainSamples_append {ρ : Type} (E : Engine ρ ℝ) (targets xs ys : List (Tensor ℝ)) : ∀ i (s : Session ρ ℝ),
    trainSamples E targets i (xs ++ ys) s = (trainSamples E targets i xs >>= fun _ => trainSamples E targets (i + xs.length) ys) s := by
  induction xs with
  | nil => intro i s; rfl
  | cons x xs ih =>
    intro i s
    show (trainSample E x targets i >>= fun _ => trainSamples E targets (i + 1) (xs ++ ys)) s =
      ((trainSample E x targets i >>= fun _ => trainSamples E targets (i + 1) xs) >>= fun _ => trainSamples E targets (i + (xs.length + 1)) ys) s
    rw [Mut.bind_apply, Mut.bind_apply, Mut.bind_apply]
    rcases trainSample E x targets i s with ⟨e | u, s'⟩
    · rfl
    · simp only
      rw [ih (i + 1) s', Mut.bind_apply, show i + 1 + xs.length = i + (xs.length + 1) by omega]

/-- The situation arises for every model whose layers fit together: `k` good samples and then one with a target of another shape make
`train` throw, after exactly `k` samples of the first epoch. -/
theorem C92_happens {ρ : Type} {ds es b : List Nat} (E : Engine ρ ℝ) (net : Net ρ ℝ) (h : WellShaped net ds es) (hL : net.loss = some .mse)
    (ps : List (Tensor ℝ × Tensor ℝ)) (hps : ∀ p ∈ ps, HasDims ds p.1 ∧ HasDims es p.2) (x y : Tensor ℝ) (hx : HasDims ds x) (hy : HasDims b y)
    (hes : Dims es) (hb : Dims b) (hne : es ≠ b) (hb1 : b.length ≠ 1) (epochs : Int) (h0 : 0 < epochs) :
    ∃ e net' net2 vs, trainCall E (ps.map Prod.fst ++ [x]) (ps.map Prod.snd ++ [y]) epochs net = (.error e, net', []) ∧
      e.isException = true ∧ Steps E ps net net2 vs ∧ SameLearned net2 net' := by
  obtain ⟨net2, vs, hs, hw⟩ := steps_total E ps hps net h
  obtain ⟨pred, net3, hp, ⟨q, rfl⟩, -⟩ := C67_predict E net2 hw x hx
  obtain ⟨t, rfl⟩ := hy
  obtain ⟨e, he, hcomp⟩ := (C29_mismatch hes hb hne (fun h => hb1 h.1) q t).1
  have hloss : net3.loss = some .mse := by
    have := (predict_learned E x net2).2.2
    rw [hp] at this
    exact this.trans ((steps_loss hs).trans hL)
  have hzip : (ps.map Prod.fst).zip (ps.map Prod.snd ++ [ofFn b t]) = ps := by
    clear hs hps
    induction ps with
    | nil => rfl
    | cons p ps ih => simp only [List.map_cons, List.cons_append, List.zip_cons_cons, ih]
  have hlast : (ps.map Prod.snd ++ [ofFn b t])[ps.length]? = some (ofFn b t) := by
    rw [List.getElem?_append_right (by simp)]
    simp
  have hsamples : ∃ tot, trainSamples E (ps.map Prod.snd ++ [ofFn b t]) 0 (ps.map Prod.fst ++ [x]) ⟨net, ofFn [1] fun _ => 0, []⟩ =
      (.error e, ⟨net3, tot, []⟩) := by
    refine ⟨ofFn [1] fun _ => vs.foldl (· + ·) 0, ?_⟩
    rw [trainSamples_append, Mut.bind_apply, samples_ok E _ _ 0 net net2 0 [] vs (by simp) (by rw [List.drop_zero, hzip]; exact hs)]
    simp only
    unfold trainSamples trainSample
    rw [Mut.bind_apply, onNet_bind, hp]
    simp only [Mut.get_bind, hloss, derefOpt, Mut.lift_ok_bind, Nat.zero_add, List.length_map]
    rw [show rd (ps.map Prod.snd ++ [ofFn b t]) (ps.length : Int) = .ok (ofFn b t) from by
      unfold rd
      rw [if_pos (by omega), Int.toNat_natCast, hlast]]
    simp only [Mut.lift_ok_bind, hcomp, Mut.lift_error_bind]
  obtain ⟨tot, hsamples⟩ := hsamples
  refine ⟨e, net3, net2, vs, ?_, he, hs, ?_⟩
  · unfold trainCall train
    obtain ⟨n, hn⟩ : ∃ n, epochs.toNat = n + 1 := ⟨epochs.toNat - 1, by omega⟩
    rw [hn, forN_const_succ, Mut.bind_apply, epoch_fails E _ _ ⟨net, _, []⟩ hsamples]
  · have := predict_learned E x net2
    rw [hp] at this
    exact this

/-- A concrete model that meets the hypotheses of all three theorems: dense 3 → 4, sigmoid, dense 4 → 2, compiled with the mean squared
error and Adam, trained on two good samples and one whose target has three columns. -/
noncomputable def exInterrupted : Net Unit ℝ where
  layers := [
    ⟨.fc { weights := ofFn [3, 4] (fun _ => 1), biases := ofFn [1, 4] (fun _ => 0) }, true⟩,
    ⟨.activation { activation := .sigmoid }, true⟩,
    ⟨.fc { weights := ofFn [4, 2] (fun _ => 1), biases := ofFn [1, 2] (fun _ => 0) }, true⟩]
  rng := ()

theorem exInterrupted_chain : Chain exInterrupted.layers [5, 3] [5, 2] := by
  have d : ∀ {ds : List Nat}, ds ≠ [] → (∀ a ∈ ds, 0 < a) → ds.prod < 2 ^ 31 → Dims ds := fun a b c => ⟨a, b, c⟩
  refine .cons (es := [5, 4]) (.dense (d (by simp) (by simp) (by simp)) (d (by simp) (by simp) (by simp))
    (d (by simp) (by simp) (by simp)) rfl rfl) ?_
  refine .cons (es := [5, 4]) (.elementwise (d (by simp) (by simp) (by simp)) (by intro h; cases h)) ?_
  exact .cons (es := [5, 2]) (.dense (d (by simp) (by simp) (by simp)) (d (by simp) (by simp) (by simp))
    (d (by simp) (by simp) (by simp)) rfl rfl) (.nil _)

example (E : Engine Unit ℝ) (o : AdamOptions ℝ) (x1 x2 x3 y1 y2 y3 : List Nat → ℝ) :
    ∃ e net' net2 vs, trainCall E [ofFn [5, 3] x1, ofFn [5, 3] x2, ofFn [5, 3] x3] [ofFn [5, 2] y1, ofFn [5, 2] y2, ofFn [5, 3] y3] 7
        (exInterrupted.compile .mse (.newAdam o)) = (.error e, net', []) ∧ e.isException = true ∧
      Steps E [(ofFn [5, 3] x1, ofFn [5, 2] y1), (ofFn [5, 3] x2, ofFn [5, 2] y2)] (exInterrupted.compile .mse (.newAdam o)) net2 vs ∧
      SameLearned net2 net' ∧ Stateless false (exInterrupted.compile .mse (.newAdam o)).layers := by
  have d : ∀ {ds : List Nat}, ds ≠ [] → (∀ a ∈ ds, 0 < a) → ds.prod < 2 ^ 31 → Dims ds := fun a b c => ⟨a, b, c⟩
  obtain ⟨e, net', net2, vs, h1, h2, h3, h4⟩ := C92_happens E _ (C67_compiled exInterrupted .mse exInterrupted_chain
    (d (by simp) (by simp) (by simp)) ⟨0, 0, 0, 0, false⟩ ⟨0, 0, 0, 0, false, 0⟩ o).2.2 rfl
    [(ofFn [5, 3] x1, ofFn [5, 2] y1), (ofFn [5, 3] x2, ofFn [5, 2] y2)] (by simpa using ⟨⟨⟨x1, rfl⟩, ⟨y1, rfl⟩⟩, ⟨⟨x2, rfl⟩, ⟨y2, rfl⟩⟩⟩)
    (ofFn [5, 3] x3) (ofFn [5, 3] y3) ⟨x3, rfl⟩ ⟨y3, rfl⟩ (d (by simp) (by simp) (by simp)) (d (by simp) (by simp) (by simp)) (by simp) (by simp)
    7 (by omega)
  exact ⟨e, net', net2, vs, h1, h2, h3, h4, by simp [exInterrupted, Net.compile, Stateless]⟩

end SmartDNN
