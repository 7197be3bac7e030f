import Verif.Props.Train
import Verif.Props.Dropout

/-!
# Using one model does not influence another (C86)

All layers draw from one random engine, a static object of the program.  Models share nothing else.
-/

namespace SmartDNN
open Net Spec

section
variable {ρ T : Type} [Zero T] [One T] [Add T] [Sub T] [Mul T] [Div T] [Neg T] [NatCast T] [IntCast T]
  [LT T] [DecidableLT T] [LE T] [DecidableLE T] [DecidableEq T] [MathFn T]

/-! ### Specification -/

/-- The calls of the public interface of a model. -/
inductive Spec.Api (T : Type) where
  | train (inputs targets : List (Tensor T)) (epochs : Int)
  | predict (input : Tensor T)
  | predictAll (inputs : List (Tensor T))
  | backward (gradOutput : Tensor T)
  | updateWeights
  | mode (training : Bool)
  | compile (loss : Loss T) (opt : Optimizer (Nat × Bool) T)
  | addLayer (l : Layer T)

/-- What the caller sees of a call: the returned tensors or the failure, and the losses printed. -/
abbrev Spec.Seen (T : Type) := Res (List (Tensor T)) × List (Tensor T)

/-- A call on a model: what is seen, and the model afterwards. -/
def Spec.Api.run (E : Engine ρ T) (net : Net ρ T) : Api T → Seen T × Net ρ T
  | .train xs ys n => let r := trainCall E xs ys n net; ((r.1.map fun _ => [], r.2.2), r.2.1)
  | .predict x => let r := Net.predict E x net; ((r.1.map fun y => [y], []), r.2)
  | .predictAll xs => let r := Net.predictAll E xs net; ((r.1, []), r.2)
  | .backward g => let r := Net.backward g net; ((r.1.map fun _ => [], []), r.2)
  | .updateWeights => let r := Net.updateWeights net; ((r.1.map fun _ => [], []), r.2)
  | .mode b => ((.ok [], []), net.setTrainingMode b)
  | .compile L opt => ((.ok [], []), net.compile L opt)
  | .addLayer l => ((.ok [], []), net.addLayer l)

/-- A program that uses only one model. -/
def Spec.alone (E : Engine ρ T) : List (Api T) → Net ρ T → List (Seen T) × Net ρ T
  | [], net => ([], net)
  | u :: us, net =>
    let r := u.run E net
    let s := alone E us r.2
    (r.1 :: s.1, s.2)

/-- Two models in one program.  The state of the engine is `rng`; the `rng` members of the models are not used. -/
structure Spec.Two (ρ T : Type) where
  a : Net ρ T
  b : Net ρ T
  rng : ρ

/-- A program that uses two models, in any order: `true` for the first, `false` for the second.  The result: what is seen of the
calls on the first and on the second model, and the state at the end. -/
def Spec.together (E : Engine ρ T) : List (Bool × Api T) → Two ρ T → List (Seen T) × List (Seen T) × Two ρ T
  | [], w => ([], [], w)
  | (true, u) :: us, w =>
    let r := u.run E { w.a with rng := w.rng }
    let s := together E us ⟨r.2, w.b, r.2.rng⟩
    (r.1 :: s.1, s.2)
  | (false, u) :: us, w =>
    let r := u.run E { w.b with rng := w.rng }
    let s := together E us ⟨w.a, r.2, r.2.rng⟩
    (s.1, r.1 :: s.2.1, s.2.2)

/-- The calls on one of the models. -/
def Spec.callsOf (m : Bool) (us : List (Bool × Api T)) : List (Api T) := (us.filter (fun u => u.1 = m)).map Prod.snd

/-- Not a dropout layer. -/
def Spec.NoDropout (l : Layer T) : Prop := ∀ d, l.kind ≠ .dropout d

/-- The model has no dropout layers. -/
def Spec.NoDropouts (net : Net ρ T) : Prop := ∀ l ∈ net.layers, NoDropout l

/-- No dropout layer is added. -/
def Spec.AddsNoDropout (us : List (Api T)) : Prop := ∀ l, Api.addLayer l ∈ us → NoDropout l

/-- Equal up to the engine, which is not part of the model. -/
def Spec.SameModel (n n' : Net ρ T) : Prop := n'.layers = n.layers ∧ n'.loss = n.loss ∧ n'.optimizer = n.optimizer

/-! ### Layers -/

theorem layer_forward_engine {l : Layer T} (h : NoDropout l) (E : Engine ρ T) (x : Tensor T) :
    ∃ res l', NoDropout l' ∧ ∀ r, Layer.forward E x (l, r) = (res, (l', r)) := by
  obtain ⟨kind, mode⟩ := l
  cases kind with
  | dropout d => exact (h d rfl).elim
  | fc c => exact ⟨(FC.forward x c).1, ⟨.fc (FC.forward x c).2, mode⟩, (fun d hd => by cases hd), fun r => rfl⟩
  | conv c => exact ⟨(Conv.forward x c).1, ⟨.conv (Conv.forward x c).2, mode⟩, (fun d hd => by cases hd), fun r => rfl⟩
  | flatten c => exact ⟨(Flatten.forward x c).1, ⟨.flatten (Flatten.forward x c).2, mode⟩, (fun d hd => by cases hd), fun r => rfl⟩
  | maxPool c => exact ⟨(MaxPool.forward x c).1, ⟨.maxPool (MaxPool.forward x c).2, mode⟩, (fun d hd => by cases hd), fun r => rfl⟩
  | batchNorm c => exact ⟨(BatchNorm.forward mode x c).1, ⟨.batchNorm (BatchNorm.forward mode x c).2, mode⟩, (fun d hd => by cases hd), fun r => rfl⟩
  | activation c => exact ⟨(ActLayer.forward x c).1, ⟨.activation (ActLayer.forward x c).2, mode⟩, (fun d hd => by cases hd), fun r => rfl⟩

theorem layer_backward_kind {l : Layer T} (h : NoDropout l) (g : Tensor T) : NoDropout (Layer.backward g l).2 := by
  obtain ⟨kind, mode⟩ := l
  cases kind with
  | dropout d => exact (h d rfl).elim
  | fc c => intro d hd; cases hd
  | conv c => intro d hd; cases hd
  | flatten c => intro d hd; cases hd
  | maxPool c => intro d hd; cases hd
  | batchNorm c => intro d hd; cases hd
  | activation c => intro d hd; cases hd

theorem layer_update_kind {l : Layer T} (h : NoDropout l) (i : Nat) (opt : Optimizer (Nat × Bool) T) :
    NoDropout (Layer.updateWeights (i, false) (i, true) (l, opt)).2.1 := by
  have := C56_layer_changes (k0 := (i, false)) (k1 := (i, true)) (by simp) l opt
  revert this
  generalize (Layer.updateWeights (i, false) (i, true) (l, opt)).2.1 = l'
  intro this
  cases this with
  | fc => intro d hd; cases hd
  | conv => intro d hd; cases hd
  | batchNorm => intro d hd; cases hd
  | unchanged => exact h

theorem forwardLayers_engine (E : Engine ρ T) (ls : List (Layer T)) : (∀ l ∈ ls, NoDropout l) → ∀ x,
    ∃ res ls', (∀ l ∈ ls', NoDropout l) ∧ ∀ r, forwardLayers E ls x r = (res, ls', r) := by
  induction ls with
  | nil => exact fun _ x => ⟨.ok x, [], by simp, fun r => rfl⟩
  | cons l ls ih =>
    intro h x
    obtain ⟨res, l', h1, h2⟩ := layer_forward_engine (h l (by simp)) E x
    cases res with
    | error e =>
      refine ⟨.error e, l' :: ls, ?_, fun r => ?_⟩
      · intro a ha
        rcases List.mem_cons.1 ha with rfl | ha
        · exact h1
        · exact h a (by simp [ha])
      · unfold forwardLayers
        rw [h2]
    | ok y =>
      obtain ⟨res, ls', h3, h4⟩ := ih (fun a ha => h a (by simp [ha])) y
      refine ⟨res, l' :: ls', ?_, fun r => ?_⟩
      · intro a ha
        rcases List.mem_cons.1 ha with rfl | ha
        · exact h1
        · exact h3 a ha
      · unfold forwardLayers
        rw [h2]
        simp only [h4]

theorem backwardLayers_kind (ls : List (Layer T)) : (∀ l ∈ ls, NoDropout l) → ∀ g, ∀ l ∈ (backwardLayers ls g).2, NoDropout l := by
  induction ls with
  | nil => exact fun _ g l hl => by cases hl
  | cons a ls ih =>
    intro h g
    have h1 := ih (fun l hl => h l (by simp [hl])) g
    unfold backwardLayers
    rcases hb : backwardLayers ls g with ⟨e | g', ls'⟩
    · rw [hb] at h1
      intro l hl
      rcases List.mem_cons.1 hl with rfl | hl
      · exact h l (by simp)
      · exact h1 l hl
    · rw [hb] at h1
      intro l hl
      rcases List.mem_cons.1 hl with rfl | hl
      · exact layer_backward_kind (h a (by simp)) g'
      · exact h1 l hl

theorem updateLayers_kind (ls : List (Layer T)) : (∀ l ∈ ls, NoDropout l) → ∀ i opt, ∀ l ∈ (updateLayers i ls opt).2.1, NoDropout l := by
  induction ls with
  | nil => exact fun _ i opt l hl => by cases hl
  | cons a ls ih =>
    intro h i opt
    have h1 := layer_update_kind (h a (by simp)) i opt
    unfold updateLayers
    rcases hu : Layer.updateWeights (i, false) (i, true) (a, opt) with ⟨e | u, a', opt'⟩
    · rw [hu] at h1
      intro l hl
      rcases List.mem_cons.1 hl with rfl | hl
      · exact h1
      · exact h l (by simp [hl])
    · rw [hu] at h1
      have h2 := ih (fun l hl => h l (by simp [hl])) (i + 1) opt'
      intro l hl
      rcases List.mem_cons.1 hl with rfl | hl
      · exact h1
      · exact h2 l hl

/-! ### Actions that neither use nor change the engine -/

/-- The action has the same outcome for every state of the engine and does not change it. -/
def Ignores {α : Type} (m : Mut (Net ρ T) α) : Prop := ∀ net : Net ρ T, NoDropouts net →
  ∃ (res : Res α) (net' : Net ρ T), NoDropouts net' ∧ ∀ r, m { net with rng := r } = (res, { net' with rng := r })

theorem predict_ignores (E : Engine ρ T) (x : Tensor T) : Ignores (predict E x) := by
  intro net h
  obtain ⟨res, ls, h1, h2⟩ := forwardLayers_engine E net.layers h x
  refine ⟨res, { net with layers := ls }, h1, fun r => ?_⟩
  unfold predict
  simp only [h2]

theorem backward_ignores (g : Tensor T) : Ignores (backward g : Mut (Net ρ T) (Tensor T)) := by
  intro net h
  exact ⟨(backwardLayers net.layers g).1, { net with layers := (backwardLayers net.layers g).2 },
    backwardLayers_kind net.layers h g, fun r => rfl⟩

theorem updateWeights_ignores : Ignores (updateWeights : Mut (Net ρ T) Unit) := by
  intro net h
  obtain ⟨layers, loss, optimizer, rng⟩ := net
  cases layers with
  | nil => exact ⟨.ok (), _, h, fun r => rfl⟩
  | cons l ls =>
    cases optimizer with
    | none => exact ⟨.error .ub, _, h, fun r => rfl⟩
    | some opt =>
      exact ⟨(updateLayers 0 (l :: ls) opt).1, ⟨(updateLayers 0 (l :: ls) opt).2.1, loss, some (updateLayers 0 (l :: ls) opt).2.2, rng⟩,
        updateLayers_kind (l :: ls) h 0 opt, fun r => rfl⟩

theorem predictAll_ignores (E : Engine ρ T) (xs : List (Tensor T)) : Ignores (predictAll E xs) := by
  induction xs with
  | nil => exact fun net h => ⟨.ok [], net, h, fun r => rfl⟩
  | cons x xs ih =>
    intro net h
    obtain ⟨res, n1, h1, h2⟩ := predict_ignores E x net h
    cases res with
    | error e =>
      refine ⟨.error e, n1, h1, fun r => ?_⟩
      unfold predictAll
      rw [Mut.bind_apply, h2]
    | ok y =>
      obtain ⟨res, n2, h3, h4⟩ := ih n1 h1
      refine ⟨res.map (y :: ·), n2, h3, fun r => ?_⟩
      unfold predictAll
      rw [Mut.bind_apply, h2]
      dsimp only
      rw [Mut.bind_apply, h4]
      cases res <;> rfl

/-- The session with another state of the engine. -/
def withEngine (s : Session ρ T) (r : ρ) : Session ρ T := { s with net := { s.net with rng := r } }

/-- The same for actions on a training session. -/
def IgnoresS {α : Type} (m : Mut (Session ρ T) α) : Prop := ∀ s : Session ρ T, NoDropouts s.net →
  ∃ (res : Res α) (s' : Session ρ T), NoDropouts s'.net ∧ ∀ r, m (withEngine s r) = (res, withEngine s' r)

theorem ignoresS_bind {α β : Type} {m : Mut (Session ρ T) α} {f : α → Mut (Session ρ T) β} (hm : IgnoresS m)
    (hf : ∀ a, IgnoresS (f a)) : IgnoresS (m >>= f) := by
  intro s hs
  obtain ⟨res, s1, h1, h2⟩ := hm s hs
  cases res with
  | error e => exact ⟨.error e, s1, h1, fun r => by rw [Mut.bind_apply, h2]⟩
  | ok a =>
    obtain ⟨res, s2, h3, h4⟩ := hf a s1 h1
    exact ⟨res, s2, h3, fun r => by rw [Mut.bind_apply, h2]; exact h4 r⟩

theorem ignoresS_get {β : Type} {f : Session ρ T → Mut (Session ρ T) β} (hr : ∀ s r, f (withEngine s r) = f s)
    (hf : ∀ s, IgnoresS (f s)) : IgnoresS (Mut.get >>= f) := by
  intro s hs
  obtain ⟨res, s', h1, h2⟩ := hf s s hs
  exact ⟨res, s', h1, fun r => by rw [Mut.get_bind, hr]; exact h2 r⟩

theorem ignoresS_lift {α : Type} (x : Res α) : IgnoresS (Mut.lift x : Mut (Session ρ T) α) :=
  fun s hs => ⟨x, s, hs, fun r => rfl⟩

theorem ignoresS_total (t : Tensor T) : IgnoresS (Mut.modify (fun s : Session ρ T => { s with total := t })) :=
  fun s hs => ⟨.ok (), { s with total := t }, hs, fun r => rfl⟩

theorem ignoresS_print (t : Tensor T) : IgnoresS (Mut.modify (fun s : Session ρ T => { s with printed := s.printed ++ [t] })) :=
  fun s hs => ⟨.ok (), { s with printed := s.printed ++ [t] }, hs, fun r => rfl⟩

theorem ignoresS_onNet {α : Type} {m : Mut (Net ρ T) α} (h : Ignores m) : IgnoresS (Session.onNet m) := by
  intro s hs
  obtain ⟨res, n, h1, h2⟩ := h s.net hs
  refine ⟨res, { s with net := n }, h1, fun r => ?_⟩
  have : m (withEngine s r).net = (res, { n with rng := r }) := h2 r
  unfold Session.onNet
  rw [this]
  rfl

theorem train_ignores (E : Engine ρ T) (inputs targets : List (Tensor T)) (n : Int) : IgnoresS (train E inputs targets n) := by
  have hs : ∀ x i, IgnoresS (trainSample E x targets i) := by
    intro x i
    unfold trainSample
    refine ignoresS_bind (ignoresS_onNet (predict_ignores E x)) fun pred => ignoresS_get (fun s r => rfl) fun s => ?_
    exact ignoresS_bind (ignoresS_lift _) fun L => ignoresS_bind (ignoresS_lift _) fun t => ignoresS_bind (ignoresS_lift _) fun v =>
      ignoresS_bind (ignoresS_lift _) fun tot => ignoresS_bind (ignoresS_total _) fun _ => ignoresS_bind (ignoresS_lift _) fun g =>
      ignoresS_bind (ignoresS_onNet (backward_ignores g)) fun _ => ignoresS_onNet updateWeights_ignores
  have hss : ∀ (xs : List (Tensor T)) i, IgnoresS (trainSamples E targets i xs) := by
    intro xs
    induction xs with
    | nil => exact fun i s hs => ⟨.ok (), s, hs, fun r => rfl⟩
    | cons x xs ih => exact fun i => ignoresS_bind (hs x i) fun _ => ih (i + 1)
  have he : IgnoresS (trainEpoch E inputs targets) := by
    unfold trainEpoch
    exact ignoresS_bind (ignoresS_lift _) fun _ => ignoresS_bind (ignoresS_total _) fun _ => ignoresS_bind (hss inputs 0) fun _ =>
      ignoresS_get (fun s r => rfl) fun s => ignoresS_bind (ignoresS_lift _) fun t => ignoresS_print t
  unfold train Mut.forN
  generalize List.range n.toNat = L
  induction L with
  | nil => exact fun s hs => ⟨.ok (), s, hs, fun r => rfl⟩
  | cons a L ih => exact ignoresS_bind he fun _ => ih

/-- A call on a model without dropout layers: what is seen and the model afterwards do not depend on the engine, and the engine is
not changed. -/
theorem api_ignores (E : Engine ρ T) (net : Net ρ T) (h : NoDropouts net) (u : Api T) (hu : ∀ l, u = .addLayer l → NoDropout l) :
    ∃ (seen : Seen T) (net' : Net ρ T), NoDropouts net' ∧ ∀ r, u.run E { net with rng := r } = (seen, { net' with rng := r }) := by
  cases u with
  | train xs ys n =>
    obtain ⟨res, s', h1, h2⟩ := train_ignores E xs ys n ⟨net, ofFn [1] fun _ => 0, []⟩ h
    refine ⟨(res.map fun _ => [], s'.printed), s'.net, h1, fun r => ?_⟩
    have h3 : train E xs ys n ⟨{ net with rng := r }, ofFn [1] fun _ => 0, []⟩ = (res, withEngine s' r) := h2 r
    simp only [Api.run, trainCall, h3]
    rfl
  | predict x =>
    obtain ⟨res, n, h1, h2⟩ := predict_ignores E x net h
    exact ⟨(res.map fun y => [y], []), n, h1, fun r => by simp only [Api.run, h2]⟩
  | predictAll xs =>
    obtain ⟨res, n, h1, h2⟩ := predictAll_ignores E xs net h
    exact ⟨(res, []), n, h1, fun r => by simp only [Api.run, h2]⟩
  | backward g =>
    obtain ⟨res, n, h1, h2⟩ := backward_ignores g net h
    exact ⟨(res.map fun _ => [], []), n, h1, fun r => by simp only [Api.run, h2]⟩
  | updateWeights =>
    obtain ⟨res, n, h1, h2⟩ := updateWeights_ignores net h
    exact ⟨(res.map fun _ => [], []), n, h1, fun r => by simp only [Api.run, h2]⟩
  | mode b =>
    refine ⟨(.ok [], []), net.setTrainingMode b, ?_, fun r => rfl⟩
    intro l hl
    obtain ⟨l0, hl0, rfl⟩ := List.mem_map.1 hl
    exact h l0 hl0
  | compile L opt => exact ⟨(.ok [], []), net.compile L opt, h, fun r => rfl⟩
  | addLayer l =>
    refine ⟨(.ok [], []), net.addLayer l, ?_, fun r => rfl⟩
    intro a ha
    simp only [addLayer, List.mem_append, List.mem_singleton] at ha
    rcases ha with ha | rfl
    · exact h a ha
    · exact hu a rfl

/-- **C86.**  A program uses two models, in any order and with any calls — training, prediction, also calls that throw.  If the
first model has no dropout layers, then everything seen of the calls on it, and the model at the end, is as if the second model
were not used at all; whatever the second model is, and whatever the engine. -/
theorem C86_first_partial (E : Engine ρ T) : ∀ (us : List (Bool × Api T)) (w : Two ρ T) (r : ρ), NoDropouts w.a →
    AddsNoDropout (callsOf true us) →
    (together E us w).1 = (alone E (callsOf true us) { w.a with rng := r }).1 ∧
    SameModel (together E us w).2.2.a (alone E (callsOf true us) { w.a with rng := r }).2 := by
  intro us
  induction us with
  | nil => exact fun w r _ _ => ⟨rfl, rfl, rfl, rfl⟩
  | cons u us ih =>
    intro w r h hu
    obtain ⟨m, u⟩ := u
    cases m with
    | true =>
      obtain ⟨seen, n, h1, h2⟩ := api_ignores E w.a h u (fun l hl => hu l (by simp [callsOf, hl]))
      have h3 := ih ⟨{ n with rng := w.rng }, w.b, w.rng⟩ r h1 (fun l hl => hu l (by
        simp only [callsOf, List.filter_cons_of_pos, decide_true, List.map_cons, List.mem_cons]
        exact Or.inr hl))
      have h4 : callsOf true ((true, u) :: us) = u :: callsOf true us := by simp [callsOf]
      rw [h4]
      simp only [together, alone, h2]
      exact ⟨by rw [h3.1], h3.2⟩
    | false =>
      have h4 : callsOf true ((false, u) :: us) = callsOf true us := by simp [callsOf]
      rw [h4] at hu ⊢
      exact ih ⟨w.a, (u.run E { w.b with rng := w.rng }).2, (u.run E { w.b with rng := w.rng }).2.rng⟩ r h hu

/-- The same for the second model. -/
theorem C86_second_partial (E : Engine ρ T) : ∀ (us : List (Bool × Api T)) (w : Two ρ T) (r : ρ), NoDropouts w.b →
    AddsNoDropout (callsOf false us) →
    (together E us w).2.1 = (alone E (callsOf false us) { w.b with rng := r }).1 ∧
    SameModel (together E us w).2.2.b (alone E (callsOf false us) { w.b with rng := r }).2 := by
  intro us
  induction us with
  | nil => exact fun w r _ _ => ⟨rfl, rfl, rfl, rfl⟩
  | cons u us ih =>
    intro w r h hu
    obtain ⟨m, u⟩ := u
    cases m with
    | false =>
      obtain ⟨seen, n, h1, h2⟩ := api_ignores E w.b h u (fun l hl => hu l (by simp [callsOf, hl]))
      have h3 := ih ⟨w.a, { n with rng := w.rng }, w.rng⟩ r h1 (fun l hl => hu l (by
        simp only [callsOf, List.filter_cons_of_pos, decide_true, List.map_cons, List.mem_cons]
        exact Or.inr hl))
      have h4 : callsOf false ((false, u) :: us) = u :: callsOf false us := by simp [callsOf]
      rw [h4]
      simp only [together, alone, h2]
      exact ⟨by rw [h3.1], h3.2⟩
    | true =>
      have h4 : callsOf false ((true, u) :: us) = callsOf false us := by simp [callsOf]
      rw [h4] at hu ⊢
      exact ih ⟨(u.run E { w.a with rng := w.rng }).2, w.b, (u.run E { w.a with rng := w.rng }).2.rng⟩ r h hu

end

/-- **C86 refuted for dropout.**  Two models that consist of one dropout layer each.  Whenever the engine draws a number that drops
the element and then one that keeps it, the prediction of the second model depends on whether the first was used before it, although
the second model and its input are the same. -/
theorem C86_dropout_refuted {ρ : Type} (E : Engine ρ ℝ) (r : ρ) (rate : ℝ) (hr : rate ≠ 1) (na nb : Net ρ ℝ)
    (ha : na.layers = [⟨.dropout { dropoutRate := rate }, true⟩]) (hb : nb.layers = [⟨.dropout { dropoutRate := rate }, true⟩])
    (h1 : ¬ kept rate (E.he 1 r).1) (h2 : kept rate (E.he 1 (E.he 1 r).2).1) :
    (together E [(true, .predict (ofFn [1] fun _ => 1)), (false, .predict (ofFn [1] fun _ => 1))] ⟨na, nb, r⟩).2.1 ≠
      (together E [(false, .predict (ofFn [1] fun _ => 1))] ⟨na, nb, r⟩).2.1 := by
  classical
  have key : ∀ s : ρ, ∃ l', Dropout.forward E true (ofFn [1] fun _ => 1) ({ dropoutRate := rate }, s) =
      (.ok (ofFn [1] fun _ => if kept rate (E.he 1 s).1 then 1 / (1 - rate) else 0), (l', (E.he 1 s).2)) := by
    intro s
    obtain ⟨u, r', l', e1, e2⟩ := C48_training E dims_one (fun _ => 1) { dropoutRate := rate } s hr
    rw [Tensor.rand, createRandom_ofFn, Except.ok.injEq, Prod.mk.injEq] at e1
    obtain ⟨e3, e4⟩ := e1
    refine ⟨l', ?_⟩
    rw [e2, ← e4]
    refine Prod.ext ?_ rfl
    simp only [Except.ok.injEq]
    refine ofFn_congr fun i hi => ?_
    obtain ⟨a, rfl, ha⟩ := valid1_iff.1 hi
    have ha0 : a = 0 := by omega
    subst ha0
    have h5 := ofFn_inj e3 hi
    rw [← h5]
    simp only [ravel1, List.prod_cons, List.prod_nil, mul_one, drawAt, engineAfter, kept_iff_cmin]
  have step : ∀ (net : Net ρ ℝ) (s : ρ), net.layers = [⟨.dropout { dropoutRate := rate }, true⟩] → ∃ net',
      predict E (ofFn [1] fun _ => 1) { net with rng := s } =
        (.ok (ofFn [1] fun _ => if kept rate (E.he 1 s).1 then 1 / (1 - rate) else 0), net') ∧ net'.rng = (E.he 1 s).2 := by
    intro net s hn
    obtain ⟨l', hl⟩ := key s
    refine ⟨{ net with layers := [⟨.dropout l', true⟩], rng := (E.he 1 s).2 }, ?_, rfl⟩
    unfold predict
    simp only [hn, forwardLayers, Layer.forward, Layer.onKind, hl]
  obtain ⟨n1, e1, q1⟩ := step na r ha
  obtain ⟨n2, e2, -⟩ := step nb (E.he 1 r).2 hb
  obtain ⟨n3, e3, -⟩ := step nb r hb
  simp only [together, Api.run, e1, q1, e2, e3, if_pos h2, if_neg h1]
  simp only [Except.map, ne_eq, List.cons.injEq, Prod.mk.injEq, Except.ok.injEq, and_true]
  intro h
  have := ofFn_inj h (valid1_iff.2 ⟨0, rfl, by omega⟩)
  simp only [div_eq_zero_iff, one_ne_zero, false_or] at this
  exact hr (by linarith)

/-- Such an engine exists. -/
example : ∃ (E : Engine Bool ℝ) (r : Bool), ¬ kept (1 / 2) (E.he 1 r).1 ∧ kept (1 / 2) (E.he 1 (E.he 1 r).2).1 := by
  refine ⟨⟨fun _ => false, fun _ r => (if r then 1 else 0, true)⟩, false, ?_, ?_⟩ <;> norm_num [kept]

/-- Models without dropout exist, and programs that use two of them. -/
example : ∃ (w : Two Unit ℝ) (us : List (Bool × Api ℝ)), NoDropouts w.a ∧ AddsNoDropout (callsOf true us) ∧
    callsOf true us ≠ [] ∧ callsOf false us ≠ [] := by
  refine ⟨⟨Net.new (), Net.new (), ()⟩, [(true, .addLayer ⟨.activation ⟨.tanh, none⟩, true⟩), (false, .mode true),
    (true, .predict (ofFn [1] fun _ => 1))], ?_, ?_, ?_, ?_⟩
  · intro l hl
    cases hl
  · intro l hl
    simp [callsOf] at hl
    subst hl
    intro d hd
    cases hd
  · simp [callsOf]
  · simp [callsOf]

end SmartDNN
