import Verif.Props.Predict

/-!
# Evaluation mode (C53)
-/

namespace SmartDNN
open Net Spec

section
variable {ρ T : Type} [Zero T] [One T] [Add T] [Sub T] [Mul T] [Div T] [Neg T] [NatCast T] [IntCast T]
  [LT T] [DecidableLT T] [LE T] [DecidableLE T] [DecidableEq T] [MathFn T]

/-- A layer without the copy of its last input (of its shape, for flatten) that it keeps for `backward`.
Everything else is kept: parameters, gradients, running statistics, settings, dropout mask, mode. -/
def Spec.forget (l : Layer T) : Layer T :=
  { l with kind := match l.kind with
      | .fc k => .fc { k with input := none }
      | .conv k => .conv { k with input := none }
      | .flatten k => .flatten { k with originalShape := none }
      | .maxPool k => .maxPool { k with input := none }
      | .batchNorm k => .batchNorm k
      | .dropout k => .dropout k
      | .activation k => .activation { k with input := none } }


theorem conv_forward_res (x : Tensor T) (k : Conv T) :
    (Conv.forward x k).1 =
      (if x.shape.rank ≠ 4 then .error .abort else do
        let c ← x.shape.get 1
        if c ≠ k.inputChannels then .error .abort else k.correlate x) ∧
    ({ (Conv.forward x k).2 with input := none } : Conv T) = { k with input := none } := by
  unfold Conv.forward
  rw [Mut.get_bind]
  by_cases h : x.shape.rank ≠ 4
  · rw [if_pos h, if_pos h]; exact ⟨rfl, rfl⟩
  · rw [if_neg h, if_neg h]
    rcases hg : x.shape.get 1 with e | c
    · exact ⟨rfl, rfl⟩
    · rw [Mut.lift_ok_bind]
      by_cases hc : c ≠ k.inputChannels
      · rw [if_pos hc]
        refine ⟨?_, rfl⟩
        rw [Except.bind_ok', if_pos hc]; rfl
      · rw [if_neg hc]
        refine ⟨?_, rfl⟩
        rw [Except.bind_ok', if_neg hc]; rfl

theorem flatten_forward_res (x : Tensor T) (k : Flatten) :
    (Flatten.forward x k).1 = (Flatten.forward x { k with originalShape := none }).1 ∧
    ({ (Flatten.forward x k).2 with originalShape := none } : Flatten) = { k with originalShape := none } := by
  unfold Flatten.forward
  by_cases h : x.shape.rank < 2
  · rw [if_pos h]; exact ⟨rfl, rfl⟩
  · rw [if_neg h]
    by_cases h2 : x.shape.rank = 2
    · rw [if_pos h2]; exact ⟨rfl, rfl⟩
    · rw [if_neg h2]
      exact ⟨rfl, rfl⟩

theorem maxPool_forward_res (x : Tensor T) (k : MaxPool T) :
    (MaxPool.forward x k).1 = (MaxPool.forward x { k with input := none }).1 ∧
    ({ (MaxPool.forward x k).2 with input := none } : MaxPool T) = { k with input := none } := by
  unfold MaxPool.forward
  by_cases h : x.shape.rank ≠ 4
  · rw [if_pos h]; exact ⟨rfl, rfl⟩
  · rw [if_neg h]
    exact ⟨rfl, rfl⟩

theorem Mut.lift_bind_state {σ α β : Type} (r : Res α) (f : α → Mut σ β) (s : σ) (h : ∀ a, (f a s).2 = s) :
    ((Mut.lift r >>= f) s).2 = s := by
  cases r with
  | error e => rfl
  | ok a => exact h a

theorem batchNorm_forward_eval (x : Tensor T) (k : BatchNorm T) : (BatchNorm.forward false x k).2 = k := by
  unfold BatchNorm.forward
  by_cases h : x.shape.rank ≠ 2 ∧ x.shape.rank ≠ 4
  · rw [if_pos h]; rfl
  · rw [if_neg h, if_neg (by simp), Mut.get_bind]
    iterate 5 refine Mut.lift_bind_state _ _ _ fun _ => ?_
    rfl

/-- In evaluation mode `forward` of a layer leaves the random engine and everything but the remembered input
unchanged, also when it throws. -/
theorem C53_layer_unchanged (E : Engine ρ T) (x : Tensor T) (l : Layer T) (r : ρ) (h : l.trainingMode = false) :
    forget (Layer.forward E x (l, r)).2.1 = forget l ∧ (Layer.forward E x (l, r)).2.2 = r := by
  obtain ⟨kind, mode⟩ := l
  subst h
  cases kind with
  | fc k => exact ⟨rfl, rfl⟩
  | conv k =>
    refine ⟨?_, rfl⟩
    exact congrArg (fun k => (⟨.conv k, false⟩ : Layer T)) (conv_forward_res x k).2
  | flatten k =>
    refine ⟨?_, rfl⟩
    exact congrArg (fun k => (⟨.flatten k, false⟩ : Layer T)) (flatten_forward_res x k).2
  | maxPool k =>
    refine ⟨?_, rfl⟩
    exact congrArg (fun k => (⟨.maxPool k, false⟩ : Layer T)) (maxPool_forward_res x k).2
  | batchNorm k =>
    refine ⟨?_, rfl⟩
    exact congrArg (fun k => (⟨.batchNorm k, false⟩ : Layer T)) (batchNorm_forward_eval x k)
  | dropout k => exact ⟨rfl, rfl⟩
  | activation k => exact ⟨rfl, rfl⟩

/-- In evaluation mode the result of `forward` depends on nothing but the input and the layer without its
remembered input. -/
theorem C53_layer_result (E : Engine ρ T) (x : Tensor T) (l l' : Layer T) (r r' : ρ) (h : l.trainingMode = false)
    (hl : forget l' = forget l) : (Layer.forward E x (l', r')).1 = (Layer.forward E x (l, r)).1 := by
  have key : ∀ (l : Layer T) (r : ρ), l.trainingMode = false →
      (Layer.forward E x (l, r)).1 = (Layer.forward E x (forget l, r')).1 := by
    intro l r h
    obtain ⟨kind, mode⟩ := l
    subst h
    cases kind with
    | fc k => rfl
    | conv k =>
      exact (conv_forward_res x k).1.trans (conv_forward_res x { k with input := none }).1.symm
    | flatten k => exact (flatten_forward_res x k).1
    | maxPool k => exact (maxPool_forward_res x k).1
    | batchNorm k => rfl
    | dropout k => rfl
    | activation k => rfl
  have h' : l'.trainingMode = false := by
    have : (forget l').trainingMode = (forget l).trainingMode := by rw [hl]
    exact this.trans h
  rw [key l' r' h', key l r h, hl]

/-! ### The model -/

/-- All layers are in evaluation mode. -/
def Spec.EvalMode (net : Net ρ T) : Prop := ∀ l ∈ net.layers, l.trainingMode = false

theorem forwardLayers_eval (E : Engine ρ T) (ls : List (Layer T)) (x : Tensor T) (r : ρ)
    (h : ∀ l ∈ ls, l.trainingMode = false) :
    (forwardLayers E ls x r).2.1.map forget = ls.map forget ∧ (forwardLayers E ls x r).2.2 = r := by
  induction ls generalizing x r with
  | nil => exact ⟨rfl, rfl⟩
  | cons l ls ih =>
    have h1 := C53_layer_unchanged E x l r (h l (by simp))
    unfold forwardLayers
    rcases hf : Layer.forward E x (l, r) with ⟨res, l', r'⟩
    rw [hf] at h1
    cases res with
    | error e => exact ⟨by simp [h1.1], h1.2⟩
    | ok y =>
      have h2 := ih y r' (fun l hl => h l (by simp [hl]))
      exact ⟨by simp [h1.1, h2.1], h2.2.trans h1.2⟩

theorem forwardLayers_congr (E : Engine ρ T) (ls ls' : List (Layer T)) (x : Tensor T) (r r' : ρ)
    (h : ∀ l ∈ ls, l.trainingMode = false) (hl : ls'.map forget = ls.map forget) :
    (forwardLayers E ls' x r').1 = (forwardLayers E ls x r).1 := by
  induction ls generalizing ls' x r r' with
  | nil =>
    simp only [List.map_nil, List.map_eq_nil_iff] at hl
    subst hl
    rfl
  | cons l ls ih =>
    cases ls' with
    | nil => simp at hl
    | cons l' ls' =>
      simp only [List.map_cons, List.cons.injEq] at hl
      have h1 := C53_layer_result E x l l' r r' (h l (by simp)) hl.1
      unfold forwardLayers
      rcases hf : Layer.forward E x (l, r) with ⟨res, m, s⟩
      rcases hf' : Layer.forward E x (l', r') with ⟨res', m', s'⟩
      rw [hf, hf'] at h1
      simp only at h1
      subst h1
      cases res' with
      | error e => rfl
      | ok y => exact ih ls' y s s' (fun l hl => h l (by simp [hl])) hl.2

/-- `evalMode()` and `trainingMode()` set the mode of every layer and change nothing else. -/
theorem C53_modes (mode : Bool) (net : Net ρ T) :
    (∀ l ∈ (setTrainingMode mode net).layers, l.trainingMode = mode) ∧
    (setTrainingMode mode net).layers.map (fun l => l.kind) = net.layers.map (fun l => l.kind) ∧
    (setTrainingMode mode net).loss = net.loss ∧ (setTrainingMode mode net).optimizer = net.optimizer ∧
    (setTrainingMode mode net).rng = net.rng := by
  refine ⟨?_, ?_, rfl, rfl, rfl⟩
  · intro l hl
    obtain ⟨a, -, rfl⟩ := List.mem_map.1 hl
    rfl
  · simp only [setTrainingMode, List.map_map]
    rfl

/-- The state after a history of `predict` calls, whether they return or throw. -/
def Spec.afterPredicts (E : Engine ρ T) (history : List (Tensor T)) (net : Net ρ T) : Net ρ T :=
  history.foldl (fun net x => (predict E x net).2) net

/-- Any history of predictions in evaluation mode leaves the loss function, the optimizer, the random engine
and, up to remembered inputs, every layer unchanged, even if some of the calls throw. -/
theorem C53_unchanged (E : Engine ρ T) (history : List (Tensor T)) (net : Net ρ T) (h : EvalMode net) :
    (afterPredicts E history net).layers.map forget = net.layers.map forget ∧
    (afterPredicts E history net).rng = net.rng ∧ (afterPredicts E history net).loss = net.loss ∧
    (afterPredicts E history net).optimizer = net.optimizer := by
  unfold afterPredicts
  induction history generalizing net with
  | nil => exact ⟨rfl, rfl, rfl, rfl⟩
  | cons x xs ih =>
    rw [List.foldl_cons]
    have h1 := forwardLayers_eval E net.layers x net.rng h
    have hm : EvalMode (predict E x net).2 := by
      have hmap : (predict E x net).2.layers.map Layer.trainingMode = net.layers.map Layer.trainingMode := by
        have := congrArg (List.map Layer.trainingMode) h1.1
        simp only [List.map_map, Function.comp_def, forget] at this
        exact this
      intro l hl
      have : l.trainingMode ∈ net.layers.map Layer.trainingMode := hmap ▸ List.mem_map_of_mem hl
      obtain ⟨a, ha, hb⟩ := List.mem_map.1 this
      rw [← hb]
      exact h a ha
    obtain ⟨a, b, c, d⟩ := ih (predict E x net).2 hm
    exact ⟨a.trans h1.1, b.trans h1.2, c, d⟩

/-- A prediction in evaluation mode has the same outcome after any history of predictions. -/
theorem C53_repeatable (E : Engine ρ T) (history : List (Tensor T)) (x : Tensor T) (net : Net ρ T) (h : EvalMode net) :
    (predict E x (afterPredicts E history net)).1 = (predict E x net).1 :=
  forwardLayers_congr E net.layers _ x net.rng _ h (C53_unchanged E history net h).1

/-- The usual use: `evalMode()`, then predictions. -/
theorem C53_evalMode (E : Engine ρ T) (history : List (Tensor T)) (x : Tensor T) (net : Net ρ T) :
    (predict E x (afterPredicts E history (setTrainingMode false net))).1 =
      (predict E x (setTrainingMode false net)).1 :=
  C53_repeatable E history x _ (C53_modes false net).1

/-- A model with a dense, a dropout, a batch-norm and an activation layer, in evaluation mode. -/
example (w b g : Tensor T) (r : ρ) :
    EvalMode (setTrainingMode false (addLayer ⟨.activation ⟨.relu, none⟩, true⟩
      (addLayer ⟨.batchNorm ⟨1, 0, 0, g, g, g, g, none, none, none, none, none⟩, true⟩
        (addLayer ⟨.dropout ⟨0, none⟩, true⟩ (addLayer ⟨.fc ⟨w, b, none, none, none⟩, true⟩ (Net.new r)))))) :=
  (C53_modes false _).1

end

end SmartDNN
