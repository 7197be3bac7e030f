import Verif.Props.RowOrder

/-!
# The order of hidden units does not matter, and equal units stay equal (C98)

Renaming the units of hidden dense layers — permuting the columns of a weight matrix together with the biases and the rows of the next
weight matrix — gives a model that predicts the same values, trains in the same way and stays a renaming of the original.  So two hidden
units that start with equal weights have equal weights for ever.
-/

namespace SmartDNN
open Net Spec

/-! ### Specification -/

/-- Rename the rows of a matrix with `σ` and its columns with `τ`. -/
def Spec.ren (σ τ : Nat → Nat) : List Nat → List Nat
  | [i, j] => [σ i, τ j]
  | idx => idx

/-- What happens to a layer: nothing, or the inputs of a dense layer `n → m` are renamed with `σ` and its outputs with `τ`. -/
inductive Spec.Renaming where
  | keep
  | units (n m : Nat) (σ τ : Nat → Nat)

/-- `Renamed R σ τ l l'`: `l'` is `l` with its inputs renamed by `σ` and its outputs renamed by `τ`.  Any layer can be kept as it is; an
elementwise activation can stand between renamed units.  What the layers remember of earlier calls is not compared, except when a layer is
kept. -/
inductive Spec.Renamed : Renaming → (Nat → Nat) → (Nat → Nat) → Layer ℝ → Layer ℝ → Prop where
  | dense {n m : Nat} {σ τ : Nat → Nat} {w bias : List Nat → ℝ} {f f' : FC ℝ} {mode : Bool} (hσ : Reorders n σ) (hτ : Reorders m τ)
      (hw : f.weights = ofFn [n, m] w) (hb : f.biases = ofFn [1, m] bias)
      (hw' : f'.weights = ofFn [n, m] fun i => w (ren σ τ i)) (hb' : f'.biases = ofFn [1, m] fun i => bias (ren id τ i)) :
      Renamed (.units n m σ τ) σ τ ⟨.fc f, mode⟩ ⟨.fc f', mode⟩
  | elementwise {σ : Nat → Nat} {a a' : ActLayer ℝ} {mode : Bool} (ha : a.activation ≠ .softmax) (h : a'.activation = a.activation) :
      Renamed .keep σ σ ⟨.activation a, mode⟩ ⟨.activation a', mode⟩
  | same (l : Layer ℝ) : Renamed .keep id id l l

/-- The layers of a model with the units between them renamed. -/
inductive Spec.RenamedAll : List Renaming → (Nat → Nat) → (Nat → Nat) → List (Layer ℝ) → List (Layer ℝ) → Prop where
  | nil (σ : Nat → Nat) : RenamedAll [] σ σ [] []
  | cons {R : Renaming} {Rs : List Renaming} {σ τ υ : Nat → Nat} {l l' : Layer ℝ} {ls ls' : List (Layer ℝ)} (h : Renamed R σ τ l l')
      (hs : RenamedAll Rs τ υ ls ls') : RenamedAll (R :: Rs) σ υ (l :: ls) (l' :: ls')

/-- How the tensors of a parameter and of its gradient are renamed: dimensions, rows, columns. -/
abbrev Spec.Frame := Option (List Nat × (Nat → Nat) × (Nat → Nat))

/-- The renaming of the weights (`false`) and biases (`true`) of layer `k.1`. -/
def Spec.frame (Rs : List Renaming) (k : Nat × Bool) : Frame :=
  match Rs[k.1]? with
  | some (.units n m σ τ) => if k.2 then some ([1, m], id, τ) else some ([n, m], σ, τ)
  | _ => none

/-- `t'` is `t` renamed. -/
def Spec.TensorTwin : Frame → Tensor ℝ → Tensor ℝ → Prop
  | none, t, t' => t = t'
  | some (ds, σ, τ), t, t' => ∃ v : List Nat → ℝ, t = ofFn ds v ∧ t' = ofFn ds fun i => v (ren σ τ i)

/-- The entries of two optimizers about every parameter are renamings of each other. -/
def Spec.MapTwin {K : Type} (fr : K → Frame) (M M' : TMap K ℝ) : Prop :=
  ∀ k, (M k = none ∧ M' k = none) ∨ ∃ t t', M k = some t ∧ M' k = some t' ∧ TensorTwin (fr k) t t'

/-- Two optimizers with the same options whose memories are renamings of each other. -/
def Spec.OptTwin {K : Type} (fr : K → Frame) : Optimizer K ℝ → Optimizer K ℝ → Prop
  | .sgd o, .sgd o' => o.opts = o'.opts ∧ MapTwin fr o.momentumBuffers o'.momentumBuffers
  | .rmsprop o, .rmsprop o' => o.opts = o'.opts ∧ MapTwin fr o.squaredGrads o'.squaredGrads ∧ MapTwin fr o.meanGrads o'.meanGrads ∧
      MapTwin fr o.velocityBuffers o'.velocityBuffers
  | .adam o, .adam o' => o.opts = o'.opts ∧ o.learningRate = o'.learningRate ∧ o.iterations = o'.iterations ∧ MapTwin fr o.m o'.m ∧
      MapTwin fr o.v o'.v
  | _, _ => False

/-- `net'` is `net` with hidden units renamed: the inputs and outputs of the model keep their names. -/
def Spec.Twins {ρ : Type} (Rs : List Renaming) (net net' : Net ρ ℝ) : Prop :=
  RenamedAll Rs id id net.layers net'.layers ∧ net'.loss = net.loss ∧ net'.rng = net.rng ∧
    ∃ opt opt', net.optimizer = some opt ∧ net'.optimizer = some opt' ∧ OptTwin (frame Rs) opt opt'

/-! ### Optimizers -/

section
variable {K : Type} [DecidableEq K]

theorem ren_id (idx : List Nat) : ren id id idx = idx := by
  unfold ren
  split <;> rfl

theorem map_assign {fr : K → Frame} {M M' : TMap K ℝ} (h : MapTwin fr M M') {k : K} {t t' : Tensor ℝ} (ht : TensorTwin (fr k) t t') :
    MapTwin fr (assign M k (some t)) (assign M' k (some t')) := by
  intro j
  by_cases hj : j = k
  · subst hj
    exact Or.inr ⟨t, t', assign_same _ _ _, assign_same _ _ _, ht⟩
  · rw [assign_ne _ _ hj, assign_ne _ _ hj]
    exact h j

theorem twin_shape {F : Frame} {t t' : Tensor ℝ} (h : TensorTwin F t t') : t.shape = t'.shape := by
  rcases F with _ | ⟨ds, σ, τ⟩
  · exact congrArg Tensor.shape h
  · obtain ⟨v, rfl, rfl⟩ := h
    rfl

theorem lookup_twin {fr : K → Frame} {M M' : TMap K ℝ} (h : MapTwin fr M M') (k : K) {t t' : Tensor ℝ} (ht : TensorTwin (fr k) t t') :
    TensorTwin (fr k) (lookupOrZero M k t.shape) (lookupOrZero M' k t'.shape) := by
  unfold lookupOrZero
  rcases h k with ⟨h1, h2⟩ | ⟨a, a', h1, h2, h3⟩
  · rw [h1, h2]
    rcases hf : fr k with _ | ⟨ds, σ, τ⟩
    · rw [hf] at ht
      exact congrArg (fun s => Tensor.full s 0) (congrArg Tensor.shape ht)
    · rw [hf] at ht
      obtain ⟨v, rfl, rfl⟩ := ht
      exact ⟨fun _ => 0, full_shapeOf ds 0, full_shapeOf ds 0⟩
  · rw [h1, h2]
    exact h3

/-- Both results are the same exception, or both are values related by `R`. -/
def Both {A B : Type} (R : A → B → Prop) (r : Res A) (r' : Res B) : Prop :=
  (∃ a b, r = .ok a ∧ r' = .ok b ∧ R a b) ∨ ∃ e, r = .error e ∧ r' = .error e

theorem both_refl {A : Type} {R : A → A → Prop} (h : ∀ a, R a a) (r : Res A) : Both R r r := by
  rcases r with e | a
  · exact Or.inr ⟨e, rfl, rfl⟩
  · exact Or.inl ⟨a, a, rfl, rfl, h a⟩

theorem both_bind {A B C D : Type} {R : A → B → Prop} {S : C → D → Prop} {r : Res A} {r' : Res B} (h : Both R r r') {f : A → Res C}
    {g : B → Res D} (hf : ∀ a b, R a b → Both S (f a) (g b)) : Both S (r >>= f) (r' >>= g) := by
  rcases h with ⟨a, b, rfl, rfl, hab⟩ | ⟨e, rfl, rfl⟩
  · exact hf a b hab
  · exact Or.inr ⟨e, rfl, rfl⟩

theorem sgd_twin (F : Frame) (o : SGDOptions ℝ) (lr : ℝ) {w w' b b' g g' : Tensor ℝ} (hw : TensorTwin F w w') (hb : TensorTwin F b b')
    (hg : TensorTwin F g g') :
    Both (fun p q => TensorTwin F p.1 q.1 ∧ TensorTwin F p.2 q.2) (SGD.loop o w b g lr) (SGD.loop o w' b' g' lr) := by
  rcases F with _ | ⟨ds, σ, τ⟩
  · cases hw
    cases hb
    cases hg
    exact both_refl (fun _ => ⟨rfl, rfl⟩) _
  · obtain ⟨w, rfl, rfl⟩ := hw
    obtain ⟨b, rfl, rfl⟩ := hb
    obtain ⟨g, rfl, rfl⟩ := hg
    exact Or.inl ⟨_, _, sgd_loop_ofFn o ds w b g lr, sgd_loop_ofFn o ds _ _ _ lr, ⟨_, rfl, rfl⟩, ⟨_, rfl, rfl⟩⟩

theorem rms_twin (F : Frame) (o : RMSPropOptions ℝ) (lr : ℝ) {w w' q q' m m' v v' g g' : Tensor ℝ} (hw : TensorTwin F w w')
    (hq : TensorTwin F q q') (hm : TensorTwin F m m') (hv : TensorTwin F v v') (hg : TensorTwin F g g') :
    Both (fun p q => TensorTwin F p.weight q.weight ∧ TensorTwin F p.sq q.sq ∧ TensorTwin F p.mean q.mean ∧ TensorTwin F p.vel q.vel)
      (RMSProp.loop o ⟨w, q, m, v⟩ g lr) (RMSProp.loop o ⟨w', q', m', v'⟩ g' lr) := by
  rcases F with _ | ⟨ds, σ, τ⟩
  · cases hw
    cases hq
    cases hm
    cases hv
    cases hg
    exact both_refl (fun _ => ⟨rfl, rfl, rfl, rfl⟩) _
  · obtain ⟨w, rfl, rfl⟩ := hw
    obtain ⟨q, rfl, rfl⟩ := hq
    obtain ⟨m, rfl, rfl⟩ := hm
    obtain ⟨v, rfl, rfl⟩ := hv
    obtain ⟨g, rfl, rfl⟩ := hg
    exact Or.inl ⟨_, _, rms_loop_ofFn o ds w q m v g lr, rms_loop_ofFn o ds _ _ _ _ _ lr, ⟨_, rfl, rfl⟩, ⟨_, rfl, rfl⟩, ⟨_, rfl, rfl⟩,
      ⟨_, rfl, rfl⟩⟩

theorem adam_twin (F : Frame) (o : AdamOptions ℝ) (lr : ℝ) (it : Nat) {w w' m m' v v' g g' : Tensor ℝ} (hw : TensorTwin F w w')
    (hm : TensorTwin F m m') (hv : TensorTwin F v v') (hg : TensorTwin F g g') :
    Both (fun p q => TensorTwin F p.1 q.1 ∧ TensorTwin F p.2.1 q.2.1 ∧ TensorTwin F p.2.2 q.2.2)
      (Adam.loop o lr it (w, m, v) g) (Adam.loop o lr it (w', m', v') g') := by
  rcases F with _ | ⟨ds, σ, τ⟩
  · cases hw
    cases hm
    cases hv
    cases hg
    exact both_refl (fun _ => ⟨rfl, rfl, rfl⟩) _
  · obtain ⟨w, rfl, rfl⟩ := hw
    obtain ⟨m, rfl, rfl⟩ := hm
    obtain ⟨v, rfl, rfl⟩ := hv
    obtain ⟨g, rfl, rfl⟩ := hg
    exact Or.inl ⟨_, _, adam_loop_ofFn o lr it ds w m v g, adam_loop_ofFn o lr it ds _ _ _ _, ⟨_, rfl, rfl⟩, ⟨_, rfl, rfl⟩,
      ⟨_, rfl, rfl⟩⟩

/-- One parameter. -/
theorem stepPair_twin {fr : K → Frame} (r : ℝ) {w w' : World K ℝ} (ho : OptTwin fr w.opt w'.opt) {k : K} {g g' : Tensor ℝ}
    (hm : TensorTwin (fr k) (w.mem k) (w'.mem k)) (hg : TensorTwin (fr k) g g') :
    Both (fun u u' => OptTwin fr u.opt u'.opt ∧ TensorTwin (fr k) (u.mem k) (u'.mem k) ∧ (∀ j, j ≠ k → u.mem j = w.mem j) ∧
      ∀ j, j ≠ k → u'.mem j = w'.mem j) (stepPair r w (k, g)) (stepPair r w' (k, g')) := by
  obtain ⟨mem, o⟩ := w
  obtain ⟨mem', o'⟩ := w'
  simp only at hm ho
  have side : ∀ (m : K → Tensor ℝ) (t : Tensor ℝ) (j : K), j ≠ k → assign m k t j = m j := fun m t j hj => assign_ne _ _ hj
  cases o with
  | sgd o =>
    cases o' with
    | sgd o' =>
      obtain ⟨h1, h2⟩ := ho
      unfold stepPair SGD.updateTensor
      simp only [bind_assoc]
      rw [← h1]
      refine both_bind (sgd_twin (fr k) o.opts _ hm (lookup_twin h2 k hm) hg) fun a b hab => Or.inl ⟨_, _, rfl, rfl, ?_⟩
      refine ⟨⟨rfl, map_assign h2 hab.2⟩, ?_, side _ _, side _ _⟩
      simp only [assign_same]
      exact hab.1
    | rmsprop o' => exact ho.elim
    | adam o' => exact ho.elim
  | rmsprop o =>
    cases o' with
    | sgd o' => exact ho.elim
    | rmsprop o' =>
      obtain ⟨h1, h2, h3, h4⟩ := ho
      unfold stepPair RMSProp.updateTensor
      simp only [bind_assoc]
      rw [← h1]
      refine both_bind (rms_twin (fr k) o.opts _ hm (lookup_twin h2 k hm) (lookup_twin h3 k hm) (lookup_twin h4 k hm) hg)
        fun a b hab => Or.inl ⟨_, _, rfl, rfl, ?_⟩
      refine ⟨⟨rfl, map_assign h2 hab.2.1, ?_, ?_⟩, ?_, side _ _, side _ _⟩
      · dsimp only
        split
        · exact map_assign h3 hab.2.2.1
        · exact h3
      · dsimp only
        split
        · exact map_assign h4 hab.2.2.2
        · exact h4
      · simp only [assign_same]
        exact hab.1
    | adam o' => exact ho.elim
  | adam o =>
    cases o' with
    | sgd o' => exact ho.elim
    | rmsprop o' => exact ho.elim
    | adam o' =>
      obtain ⟨h1, h2, h3, h4, h5⟩ := ho
      unfold stepPair Adam.updateTensor
      simp only [bind_assoc]
      rw [← h1, ← h2, ← h3]
      refine both_bind (adam_twin (fr k) o.opts _ _ hm (lookup_twin h4 k hm) (lookup_twin h5 k hm) hg)
        fun a b hab => Or.inl ⟨_, _, rfl, rfl, ?_⟩
      refine ⟨⟨rfl, rfl, rfl, map_assign h4 hab.2.1, map_assign h5 hab.2.2⟩, ?_, side _ _, side _ _⟩
      simp only [assign_same]
      exact hab.1

/-- One call of the optimizer with the two parameters of a layer. -/
theorem optimizePair_twin {fr : K → Frame} {k0 k1 : K} (hk : k0 ≠ k1) {opt opt' : Optimizer K ℝ} (ho : OptTwin fr opt opt')
    {p0 p0' p1 p1' g0 g0' g1 g1' : Tensor ℝ} (hp0 : TensorTwin (fr k0) p0 p0') (hp1 : TensorTwin (fr k1) p1 p1')
    (hg0 : TensorTwin (fr k0) g0 g0') (hg1 : TensorTwin (fr k1) g1 g1') :
    let r := Layer.optimizePair k0 k1 opt p0 p1 g0 g1
    let r' := Layer.optimizePair k0 k1 opt' p0' p1' g0' g1'
    r.1 = r'.1 ∧ TensorTwin (fr k0) r.2.1 r'.2.1 ∧ TensorTwin (fr k1) r.2.2.1 r'.2.2.1 ∧ OptTwin fr r.2.2.2 r'.2.2.2 := by
  intro r r'
  let w : World K ℝ := ⟨fun k => if k = k0 then p0 else p1, opt⟩
  let w' : World K ℝ := ⟨fun k => if k = k0 then p0' else p1', opt'⟩
  have hm0 : ∀ v, (World.begin w v).mem = w.mem := by intro v; unfold World.begin; split <;> rfl
  have hm0' : ∀ v, (World.begin w' v).mem = w'.mem := by intro v; unfold World.begin; split <;> rfl
  have hb : OptTwin fr (World.begin w (-1)).opt (World.begin w' (-1)).opt := by
    rcases opt with o | o | o <;> rcases opt' with o' | o' | o' <;> first | exact ho | exact ho.elim | skip
    obtain ⟨h1, h2, h3, h4, h5⟩ := ho
    refine ⟨h1, ?_, ?_, h4, h5⟩
    · show (Adam.updateLearningRate o _).learningRate = (Adam.updateLearningRate o' _).learningRate
      unfold Adam.updateLearningRate
      simp only [h1, h3]
    · show (Adam.updateLearningRate o _).iterations = (Adam.updateLearningRate o' _).iterations
      unfold Adam.updateLearningRate
      simp only [h3]
  have e0 : w.mem k0 = p0 := if_pos rfl
  have e1 : w.mem k1 = p1 := if_neg hk.symm
  have e0' : w'.mem k0 = p0' := if_pos rfl
  have e1' : w'.mem k1 = p1' := if_neg hk.symm
  have key : Both (fun u u' => OptTwin fr u.opt u'.opt ∧ TensorTwin (fr k0) (u.mem k0) (u'.mem k0) ∧
      TensorTwin (fr k1) (u.mem k1) (u'.mem k1)) ((World.begin w (-1)).updateTensors (-1) [(k0, g0), (k1, g1)])
      ((World.begin w' (-1)).updateTensors (-1) [(k0, g0'), (k1, g1')]) := by
    rw [updateTensors_eq, updateTensors_eq, List.foldlM_cons, List.foldlM_cons]
    refine both_bind (stepPair_twin (-1) hb (by rw [hm0, hm0', e0, e0']; exact hp0) hg0) fun a a' ha => ?_
    rw [List.foldlM_cons, List.foldlM_cons]
    obtain ⟨a1, a2, a3, a4⟩ := ha
    refine both_bind (stepPair_twin (-1) a1 (by rw [a3 k1 hk.symm, a4 k1 hk.symm, hm0, hm0', e1, e1']; exact hp1) hg1) fun b b' hb => ?_
    obtain ⟨b1, b2, b3, b4⟩ := hb
    refine Or.inl ⟨b, b', rfl, rfl, b1, ?_, b2⟩
    rw [b3 k0 hk, b4 k0 hk]
    exact a2
  have hr : r = ((World.optimizeM ⟨[k0, k1], [g0, g1], -1⟩ w).1, (World.optimizeM ⟨[k0, k1], [g0, g1], -1⟩ w).2.mem k0,
    (World.optimizeM ⟨[k0, k1], [g0, g1], -1⟩ w).2.mem k1, (World.optimizeM ⟨[k0, k1], [g0, g1], -1⟩ w).2.opt) := rfl
  have hr' : r' = ((World.optimizeM ⟨[k0, k1], [g0', g1'], -1⟩ w').1, (World.optimizeM ⟨[k0, k1], [g0', g1'], -1⟩ w').2.mem k0,
    (World.optimizeM ⟨[k0, k1], [g0', g1'], -1⟩ w').2.mem k1, (World.optimizeM ⟨[k0, k1], [g0', g1'], -1⟩ w').2.opt) := rfl
  rw [hr, hr']
  rcases key with ⟨u, u', h1, h2, h3, h4, h5⟩ | ⟨e, h1, h2⟩
  · have q1 : World.optimizeM ⟨[k0, k1], [g0, g1], -1⟩ w = (.ok (), u) := by
      simp [World.optimizeM, h1]
    have q2 : World.optimizeM ⟨[k0, k1], [g0', g1'], -1⟩ w' = (.ok (), u') := by
      simp [World.optimizeM, h2]
    rw [q1, q2]
    exact ⟨rfl, h4, h5, h3⟩
  · have q1 : World.optimizeM ⟨[k0, k1], [g0, g1], -1⟩ w = (.error e, w) := by
      simp [World.optimizeM, h1]
    have q2 : World.optimizeM ⟨[k0, k1], [g0', g1'], -1⟩ w' = (.error e, w') := by
      simp [World.optimizeM, h2]
    rw [q1, q2]
    refine ⟨rfl, ?_, ?_, ho⟩
    · show TensorTwin _ (w.mem k0) (w'.mem k0)
      rw [e0, e0']
      exact hp0
    · show TensorTwin _ (w.mem k1) (w'.mem k1)
      rw [e1, e1']
      exact hp1

end

/-! ### One layer -/

theorem sum_units {n : Nat} {σ : Nat → Nat} (h : Reorders n σ) (f : Nat → ℝ) :
    ∑ p ∈ Finset.range n, f (σ p) = ∑ p ∈ Finset.range n, f p := sum_reorder h f

/-- The gradients a layer has stored are renamed like its parameters. -/
def Spec.GradTwin : Renaming → Layer ℝ → Layer ℝ → Prop
  | .units n m σ τ, l, l' => ∃ a b a' b', grads l = some (a, b) ∧ grads l' = some (a', b') ∧
      TensorTwin (some ([n, m], σ, τ)) a a' ∧ TensorTwin (some ([1, m], id, τ)) b b'
  | .keep, l, l' => l = l' ∨ (params l = none ∧ params l' = none)

theorem renamed_step {ρ : Type} {R : Renaming} {σ τ : Nat → Nat} {l l' : Layer ℝ} {ds es : List Nat} (h : Typed l ds es)
    (hr : Renamed R σ τ l l') (E : Engine ρ ℝ) (r : ρ) (x : List Nat → ℝ) :
    ∃ y k k' r', Layer.forward E (ofFn ds x) (l, r) = (.ok (ofFn es y), (k, r')) ∧
      Layer.forward E (ofFn ds fun i => x (ren id σ i)) (l', r) = (.ok (ofFn es fun i => y (ren id τ i)), (k', r')) ∧
      Typed k ds es ∧ Renamed R σ τ k k' ∧ params k = params l ∧
      ∀ g, ∃ z j j', Layer.backward (ofFn es g) k = (.ok (ofFn ds z), j) ∧
        Layer.backward (ofFn es fun i => g (ren id τ i)) k' = (.ok (ofFn ds fun i => z (ren id σ i)), j') ∧
        Typed j ds es ∧ Renamed R σ τ j j' ∧ GradTwin R j j' ∧ Ready j ∧ params j = params l := by
  cases hr with
  | same =>
    obtain ⟨y, k, r', h1, h2, h3, h4⟩ := typed_step h E r x
    have e : ∀ f : List Nat → ℝ, (fun i => f (ren id id i)) = f := fun f => funext fun i => congrArg f (ren_id i)
    refine ⟨y, k, k, r', h1, by rw [e x, e y]; exact h1, h2, .same k, h3, fun g => ?_⟩
    obtain ⟨z, j, b1, b2, b3, b4⟩ := h4 g
    exact ⟨z, j, j, b1, by rw [e g, e z]; exact b1, b2, .same j, Or.inl rfl, b3, b4⟩
  | @elementwise _ a a' mode ha hact =>
    cases h with
    | softmax hd hne hs => exact absurd hs ha
    | elementwise hd _ =>
      obtain ⟨φ, ψ, h1, -⟩ := act_pointwise a.activation ha
      refine ⟨fun i => φ (x i), ⟨.activation { a with input := some (ofFn ds x) }, mode⟩,
        ⟨.activation { a' with input := some (ofFn ds fun i => x (ren id σ i)) }, mode⟩, r, ?_, ?_, .elementwise hd ha, .elementwise ha hact,
        rfl, fun g => ?_⟩
      · exact congrArg (fun y => (y, (⟨⟨.activation { a with input := some (ofFn ds x) }, mode⟩, r⟩ : Layer ℝ × ρ))) (h1 _ x).1
      · have := (h1 ds fun i => x (ren id σ i)).1
        rw [← hact] at this
        exact congrArg (fun y => (y, (⟨⟨.activation { a' with input := some (ofFn ds fun i => x (ren id σ i)) }, mode⟩, r⟩ : Layer ℝ × ρ)))
          this
      · have b2 := (h1 ds fun i => x (ren id σ i)).2 hd fun i => g (ren id σ i)
        rw [← hact] at b2
        exact ⟨fun i => ψ (x i) (g i), ⟨.activation { a with input := some (ofFn ds x) }, mode⟩,
          ⟨.activation { a' with input := some (ofFn ds fun i => x (ren id σ i)) }, mode⟩,
          congrArg (fun y => (y, (⟨.activation { a with input := some (ofFn ds x) }, mode⟩ : Layer ℝ))) ((h1 _ x).2 hd g),
          congrArg (fun y => (y, (⟨.activation { a' with input := some (ofFn ds fun i => x (ren id σ i)) }, mode⟩ : Layer ℝ))) b2,
          .elementwise hd ha, .elementwise ha hact, Or.inr ⟨rfl, rfl⟩, ready_of_none rfl, rfl⟩
  | @dense n m _ _ w bias f f' mode hσ hτ hw hb hw' hb' =>
    cases h with
    | @dense b n' m' w0 bias0 _ _ hx hdw hg hlw hlb =>
      have hd := ofFn_dims_inj (hw.symm.trans hlw)
      simp only [List.cons.injEq, and_true] at hd
      obtain ⟨rfl, rfl⟩ := hd
      let x' : List Nat → ℝ := fun i => x (ren id σ i)
      refine ⟨affine n w bias x, ⟨.fc { f with input := some (ofFn [b, n] x) }, mode⟩,
        ⟨.fc { f' with input := some (ofFn [b, n] x') }, mode⟩, r, ?_, ?_, .dense hx hdw hg hw hb, .dense hσ hτ hw hb hw' hb', rfl,
        fun g => ?_⟩
      · simp only [Layer.forward, Layer.onKind]
        rw [C37_batch hg w bias x f hw hb]
      · simp only [Layer.forward, Layer.onKind]
        rw [C37_batch hg _ _ x' f' hw' hb']
        refine congrArg (fun y => ((.ok y : Res (Tensor ℝ)), _)) (ofFn_congr fun i hi => ?_)
        obtain ⟨a, c, rfl, ha, hc⟩ := valid2_iff.1 hi
        show (∑ p ∈ Finset.range n, x [a, σ p] * w [σ p, τ c]) + bias [0, τ c] = (∑ p ∈ Finset.range n, x [a, p] * w [p, τ c]) + bias [0, τ c]
        rw [sum_units hσ fun p => x [a, p] * w [p, τ c]]
      · let g' : List Nat → ℝ := fun i => g (ren id τ i)
        have b1 := fc_backprop hx hdw hg w bias x g f hw hb
        have b2 := fc_backprop hx hdw hg _ _ x' g' f' hw' hb'
        have c1 : Layer.backward (ofFn [b, m] g) ⟨.fc { f with input := some (ofFn [b, n] x) }, mode⟩ = _ :=
          congrArg (fun p => (p.1, (⟨.fc p.2, mode⟩ : Layer ℝ))) b1
        have c2 : Layer.backward (ofFn [b, m] g') ⟨.fc { f' with input := some (ofFn [b, n] x') }, mode⟩ = _ :=
          congrArg (fun p => (p.1, (⟨.fc p.2, mode⟩ : Layer ℝ))) b2
        refine ⟨_, _, _, c1, c2.trans (congrArg (fun y => ((.ok y : Res (Tensor ℝ)), _)) (ofFn_congr fun i hi => ?_)),
          .dense hx hdw hg hw hb, .dense hσ hτ hw hb hw' hb', ⟨_, _, _, _, rfl, rfl, ⟨_, rfl, ?_⟩, ⟨_, rfl, ?_⟩⟩, ?_, rfl⟩
        · obtain ⟨a, c, rfl, ha, hc⟩ := valid2_iff.1 hi
          show ∑ j ∈ Finset.range m, g [a, τ j] * w [σ c, τ j] = ∑ j ∈ Finset.range m, g [a, j] * w [σ c, j]
          exact sum_units hτ fun j => g [a, j] * w [σ c, j]
        · refine ofFn_congr fun i hi => ?_
          obtain ⟨a, c, rfl, ha, hc⟩ := valid2_iff.1 hi
          rfl
        · refine ofFn_congr fun i hi => ?_
          obtain ⟨a, c, rfl, ha, hc⟩ := valid2_iff.1 hi
          rfl
        · intro p hp
          cases hp
          refine ⟨_, rfl, ?_, ?_, ?_, ?_⟩
          · simp only [hw]; exact full_ofFn _ _
          · simp only [hb]; exact full_ofFn _ _
          · simp only [hw]; exact size_ofFn _ _ _
          · simp only [hb]; exact size_ofFn _ _ _

/-! ### The layers of a model -/

/-- Layer by layer. -/
inductive GradTwins : List Renaming → List (Layer ℝ) → List (Layer ℝ) → Prop where
  | nil : GradTwins [] [] []
  | cons {R : Renaming} {Rs : List Renaming} {l l' : Layer ℝ} {ls ls' : List (Layer ℝ)} (h : GradTwin R l l') (hs : GradTwins Rs ls ls') :
      GradTwins (R :: Rs) (l :: ls) (l' :: ls')

theorem renamed_chain {ρ : Type} (E : Engine ρ ℝ) {Rs : List Renaming} {σ υ : Nat → Nat} {ls ls' : List (Layer ℝ)}
    (hr : RenamedAll Rs σ υ ls ls') : ∀ {ds es : List Nat}, Chain ls ds es → ∀ (r : ρ) (x : List Nat → ℝ),
    ∃ y ks ks' r', forwardLayers E ls (ofFn ds x) r = (.ok (ofFn es y), ks, r') ∧
      forwardLayers E ls' (ofFn ds fun i => x (ren id σ i)) r = (.ok (ofFn es fun i => y (ren id υ i)), ks', r') ∧
      Chain ks ds es ∧ RenamedAll Rs σ υ ks ks' ∧ ks.map params = ls.map params ∧
      ∀ g, ∃ z js js', backwardLayers ks (ofFn es g) = (.ok (ofFn ds z), js) ∧
        backwardLayers ks' (ofFn es fun i => g (ren id υ i)) = (.ok (ofFn ds fun i => z (ren id σ i)), js') ∧
        Chain js ds es ∧ RenamedAll Rs σ υ js js' ∧ GradTwins Rs js js' ∧ (∀ l ∈ js, Ready l) ∧ js.map params = ls.map params := by
  induction hr with
  | nil σ =>
    intro ds es hc r x
    cases hc
    exact ⟨x, [], [], r, rfl, rfl, .nil _, .nil _, rfl, fun g => ⟨g, [], [], rfl, rfl, .nil _, .nil _, .nil, by simp, rfl⟩⟩
  | @cons R Rs σ τ υ l l' ls ls' hl hls ih =>
    intro ds es hc r x
    cases hc with
    | @cons _ _ _ es' _ ht hts =>
      obtain ⟨y, k, k', r', f1, f2, f3, f4, f5, f6⟩ := renamed_step ht hl E r x
      obtain ⟨z, us, us', r'', k1, k2, k3, k4, k5, k6⟩ := ih hts r' y
      refine ⟨z, k :: us, k' :: us', r'', ?_, ?_, .cons f3 k3, .cons f4 k4, by simp [f5, k5], fun g => ?_⟩
      · rw [forwardLayers_cons, f1]
        simp only
        rw [k1]
      · rw [forwardLayers_cons, f2]
        simp only
        rw [k2]
      · obtain ⟨v, vs, vs', b1, b2, b3, b4, b5, b6, b7⟩ := k6 g
        obtain ⟨w, j, j', c1, c2, c3, c4, c5, c6, c7⟩ := f6 v
        refine ⟨w, j :: vs, j' :: vs', ?_, ?_, .cons c3 b3, .cons c4 b4, .cons c5 b5, ?_, by simp [b7, c7]⟩
        · unfold backwardLayers
          rw [b1]
          simp only
          rw [c1]
        · unfold backwardLayers
          rw [b2]
          simp only
          rw [c2]
        · intro a ha
          rcases List.mem_cons.1 ha with rfl | ha
          · exact c6
          · exact b6 a ha

/-- `updateWeights` of one layer. -/
theorem renamed_update {fr : Nat × Bool → Frame} {R : Renaming} {σ τ : Nat → Nat} {l l' : Layer ℝ} (hr : Renamed R σ τ l l')
    (hg : GradTwin R l l') {i : Nat} (hf : ∀ c, fr (i, c) = frame [R] (0, c)) {opt opt' : Optimizer (Nat × Bool) ℝ}
    (ho : OptTwin fr opt opt') :
    let u := Layer.updateWeights (i, false) (i, true) (l, opt)
    let u' := Layer.updateWeights (i, false) (i, true) (l', opt')
    u.1 = u'.1 ∧ Renamed R σ τ u.2.1 u'.2.1 ∧ OptTwin fr u.2.2 u'.2.2 := by
  have hk : ((i, false) : Nat × Bool) ≠ (i, true) := by simp
  intro u u'
  cases hr with
  | same =>
    rcases hp : params l with _ | p
    · have hn : ¬ Trainable l := by rw [params_trainable, hp]; rintro ⟨p, h⟩; cases h
      have e := C56_layer_other (i, false) (i, true) l opt hn
      have e' := C56_layer_other (i, false) (i, true) l opt' hn
      simp only [u, u', e, e']
      exact ⟨trivial, .same l, ho⟩
    · have h0 : ∀ c, fr (i, c) = none := fun c => by rw [hf c]; rfl
      have hop : ∀ g : Tensor ℝ × Tensor ℝ, _ := fun g =>
        optimizePair_twin (fr := fr) hk ho (p0 := p.1) (p0' := p.1) (p1 := p.2) (p1' := p.2) (g0 := g.1) (g0' := g.1) (g1 := g.2)
          (g1' := g.2) (by rw [h0]; rfl) (by rw [h0]; rfl) (by rw [h0]; rfl) (by rw [h0]; rfl)
      simp only [h0] at hop
      obtain ⟨kind, mode⟩ := l
      cases kind with
      | fc f =>
        cases hp
        simp only [u, u', Layer.updateWeights]
        rcases f.weightGradients with _ | a
        · exact ⟨rfl, .same _, ho⟩
        rcases f.biasGradients with _ | b
        · exact ⟨rfl, .same _, ho⟩
        obtain ⟨o1, o2, o3, o4⟩ := hop (a, b)
        simp only
        refine ⟨o1, ?_, o4⟩
        have o2' : _ = _ := o2
        have o3' : _ = _ := o3
        simp only at o2' o3'
        rw [o2', o3']
        exact .same _
      | conv f =>
        cases hp
        simp only [u, u', Layer.updateWeights]
        rcases f.weightGradients with _ | a
        · exact ⟨rfl, .same _, ho⟩
        rcases f.biasGradients with _ | b
        · exact ⟨rfl, .same _, ho⟩
        obtain ⟨o1, o2, o3, o4⟩ := hop (a, b)
        simp only
        refine ⟨o1, ?_, o4⟩
        have o2' : _ = _ := o2
        have o3' : _ = _ := o3
        simp only at o2' o3'
        rw [o2', o3']
        exact .same _
      | batchNorm f =>
        cases hp
        simp only [u, u', Layer.updateWeights]
        rcases f.gammaGrad with _ | a
        · exact ⟨rfl, .same _, ho⟩
        rcases f.betaGrad with _ | b
        · exact ⟨rfl, .same _, ho⟩
        obtain ⟨o1, o2, o3, o4⟩ := hop (a, b)
        simp only
        refine ⟨o1, ?_, o4⟩
        have o2' : _ = _ := o2
        have o3' : _ = _ := o3
        simp only at o2' o3'
        rw [o2', o3']
        exact .same _
      | _ => cases hp
  | elementwise ha h => exact ⟨rfl, .elementwise ha h, ho⟩
  | @dense n m _ _ w bias f f' mode hσ hτ hw hb hw' hb' =>
    obtain ⟨a, b, a', b', g1, g2, t1, t2⟩ := hg
    have h0 : fr (i, false) = some ([n, m], σ, τ) := hf false
    have h1 : fr (i, true) = some ([1, m], id, τ) := hf true
    obtain ⟨o1, o2, o3, o4⟩ := optimizePair_twin (fr := fr) hk ho (p0 := f.weights) (p0' := f'.weights) (p1 := f.biases) (p1' := f'.biases)
      (g0 := a) (g0' := a') (g1 := b) (g1' := b') (by rw [h0]; exact ⟨w, hw, hw'⟩) (by rw [h1]; exact ⟨bias, hb, hb'⟩) (by rw [h0]; exact t1)
      (by rw [h1]; exact t2)
    rw [h0] at o2
    rw [h1] at o3
    obtain ⟨w2, e2, e2'⟩ := o2
    obtain ⟨b2, e3, e3'⟩ := o3
    obtain ⟨q1, q2, q3⟩ : (∃ x, f.weightGradients = some x ∧ f.biasGradients = some b ∧ x = a) ∧
        (∃ x, f'.weightGradients = some x ∧ f'.biasGradients = some b' ∧ x = a') ∧ True := by
      simp only [grads, Option.bind_eq_some_iff, Option.map_eq_some_iff, Prod.mk.injEq] at g1 g2
      obtain ⟨x, hx, y, hy, rfl, rfl⟩ := g1
      obtain ⟨x', hx', y', hy', rfl, rfl⟩ := g2
      exact ⟨⟨_, hx, hy, rfl⟩, ⟨_, hx', hy', rfl⟩, trivial⟩
    obtain ⟨_, q1, q1', rfl⟩ := q1
    obtain ⟨_, q2, q2', rfl⟩ := q2
    simp only [u, u', Layer.updateWeights, q1, q1', q2, q2']
    exact ⟨o1, .dense hσ hτ e2 e3 e2' e3', o4⟩

theorem renamed_updates {fr : Nat × Bool → Frame} {Rs : List Renaming} {σ υ : Nat → Nat} {ls ls' : List (Layer ℝ)}
    (hr : RenamedAll Rs σ υ ls ls') : GradTwins Rs ls ls' → ∀ (i : Nat), (∀ j c, fr (i + j, c) = frame Rs (j, c)) →
    ∀ {opt opt' : Optimizer (Nat × Bool) ℝ}, OptTwin fr opt opt' →
    (updateLayers i ls opt).1 = (updateLayers i ls' opt').1 ∧
      RenamedAll Rs σ υ (updateLayers i ls opt).2.1 (updateLayers i ls' opt').2.1 ∧
      OptTwin fr (updateLayers i ls opt).2.2 (updateLayers i ls' opt').2.2 := by
  induction hr with
  | nil σ => exact fun _ i _ opt opt' ho => ⟨rfl, .nil σ, ho⟩
  | @cons R Rs σ τ υ l l' ls ls' hl hls ih =>
    intro hg i hf opt opt' ho
    cases hg with
    | cons g gs =>
      obtain ⟨h1, h2, h3⟩ := renamed_update (fr := fr) hl g (i := i) (fun c => hf 0 c) ho
      rw [updateLayers_cons, updateLayers_cons]
      rcases e : Layer.updateWeights (i, false) (i, true) (l, opt) with ⟨r, k, o⟩
      rcases e' : Layer.updateWeights (i, false) (i, true) (l', opt') with ⟨r', k', o'⟩
      rw [e, e'] at h1 h2 h3
      simp only at h1 h2 h3
      subst h1
      cases r with
      | error er => exact ⟨rfl, .cons h2 hls, h3⟩
      | ok u =>
        obtain ⟨q1, q2, q3⟩ := ih gs (i + 1) (fun j c => by rw [Nat.add_assoc, Nat.add_comm 1 j]; exact hf (j + 1) c) h3
        exact ⟨q1, .cons h2 q2, q3⟩

/-! ### Training -/

theorem renamed_trainStep {ρ : Type} {Rs : List Renaming} {ds es : List Nat} (E : Engine ρ ℝ) (net net' : Net ρ ℝ)
    (h : WellShaped net ds es) (ht : Twins Rs net net') (x y : List Nat → ℝ) :
    ∃ v k k', StepOk E (ofFn ds x) (ofFn es y) net k v ∧ StepOk E (ofFn ds x) (ofFn es y) net' k' v ∧ Twins Rs k k' ∧
      WellShaped k ds es := by
  obtain ⟨hc, ⟨L, hL, hfit⟩, opt, ho, hr⟩ := h
  obtain ⟨a1, a2, a3, opt₁, opt', a4, a5, a6⟩ := ht
  obtain rfl : opt₁ = opt := Option.some.inj (a4.symm.trans ho)
  have e : ∀ f : List Nat → ℝ, (fun i => f (ren id id i)) = f := fun f => funext fun i => congrArg f (ren_id i)
  obtain ⟨p, ks, ks', r', h1, h2, h3, h4, h5, h6⟩ := renamed_chain E a1 hc net.rng x
  rw [e x, e p] at h2
  obtain ⟨v, g, l1, l2⟩ := loss_ok hfit p y
  obtain ⟨z, js, js', b1, b2, b3, b4, b5, b6, b7⟩ := h6 g
  rw [e g, e z] at b2
  let net1 : Net ρ ℝ := { net with layers := ks, rng := r' }
  let net1' : Net ρ ℝ := { net' with layers := ks', rng := r' }
  let net2 : Net ρ ℝ := { net with layers := js, rng := r' }
  let net2' : Net ρ ℝ := { net' with layers := js', rng := r' }
  have hready : NetReady net2 := ⟨b6, opt₁, ho, remembersFrom_params b7 hr⟩
  obtain ⟨u1, u2⟩ := C56_succeeds net2 hready
  obtain ⟨c1, c2, c3⟩ := C56_changes net2
  obtain ⟨-, opt'', o1, o2⟩ := u2
  obtain ⟨w1, w2, w3⟩ := renamed_updates (fr := frame Rs) b4 b5 0 (fun j c => by rw [Nat.zero_add]) a6
  have q := net_updateWeights_eq net2 opt₁ ho
  have q' := net_updateWeights_eq net2' opt' a5
  refine ⟨v, (updateWeights net2).2, (updateWeights net2').2,
    ⟨_, net1, L, _, ofFn ds z, net2, ?_, hL, l1, l2, ?_, Prod.ext u1 rfl⟩,
    ⟨_, net1', L, _, ofFn ds z, net2', ?_, a2.trans hL, l1, l2, ?_, Prod.ext ?_ rfl⟩, ⟨?_, ?_, ?_, ?_⟩,
    ⟨updated_chain c1 b3, ⟨L, c2.trans hL, hfit⟩, opt'', o1, o2⟩⟩
  · unfold predict
    rw [h1]
  · show backward _ net1 = _
    unfold backward
    rw [show net1.layers = ks from rfl, b1]
  · unfold predict
    rw [a3, h2]
  · show backward _ net1' = _
    unfold backward
    rw [show net1'.layers = ks' from rfl, b2]
  · rw [q] at u1
    rw [q']
    rw [show net2.layers = js from rfl] at u1
    rw [show net2'.layers = js' from rfl]
    exact w1.symm.trans u1
  · rw [q, q']
    exact w2
  · rw [c2, (C56_changes net2').2.1]
    exact a2
  · rw [c3, (C56_changes net2').2.2]
  · rw [q, q']
    exact ⟨_, _, rfl, rfl, w3⟩

theorem renamed_steps {ρ : Type} {Rs : List Renaming} {ds es : List Nat} (E : Engine ρ ℝ) (ps : List (Tensor ℝ × Tensor ℝ))
    (hp : ∀ q ∈ ps, HasDims ds q.1 ∧ HasDims es q.2) :
    ∀ (net net' : Net ρ ℝ), WellShaped net ds es → Twins Rs net net' →
    ∃ vs k k', Steps E ps net k vs ∧ Steps E ps net' k' vs ∧ Twins Rs k k' ∧ WellShaped k ds es := by
  induction ps with
  | nil => exact fun net net' h ha => ⟨[], net, net', .nil net, .nil net', ha, h⟩
  | cons q ps ih =>
    intro net net' h ha
    obtain ⟨x, y⟩ := q
    obtain ⟨⟨f, hf⟩, g, hg⟩ := hp (x, y) (by simp)
    simp only at hf hg
    subst hf hg
    obtain ⟨v, k, k', s1, s2, s3, s4⟩ := renamed_trainStep E net net' h ha f g
    obtain ⟨vs, j, j', t1, t2, t3, t4⟩ := ih (fun q hq => hp q (by simp [hq])) k k' s4 s3
    exact ⟨v :: vs, j, j', .cons s1 t1, .cons s2 t2, t3, t4⟩

theorem renamed_epochs {ρ : Type} {Rs : List Renaming} {ds es : List Nat} (E : Engine ρ ℝ) (ps : List (Tensor ℝ × Tensor ℝ))
    (hp : ∀ q ∈ ps, HasDims ds q.1 ∧ HasDims es q.2) (N : Nat) :
    ∀ (net net' : Net ρ ℝ), WellShaped net ds es → Twins Rs net net' →
    ∃ rs k k', Epochs E ps N net k rs ∧ Epochs E ps N net' k' rs ∧ rs.length = N ∧ Twins Rs k k' ∧ WellShaped k ds es := by
  induction N with
  | zero => exact fun net net' h ha => ⟨[], net, net', .zero net, .zero net', rfl, ha, h⟩
  | succ N ih =>
    intro net net' h ha
    obtain ⟨vs, k, k', s1, s2, s3, s4⟩ := renamed_steps E ps hp net net' h ha
    obtain ⟨rs, j, j', t1, t2, t3, t4, t5⟩ := ih k k' s4 s3
    exact ⟨_ :: rs, j, j', .succ s1 t1, .succ s2 t2, by simp [t3], t4, t5⟩

/-- **C98, predictions.**  A model with renamed hidden units predicts the same values. -/
theorem C98_predict {ρ : Type} {Rs : List Renaming} {ds es : List Nat} (E : Engine ρ ℝ) (net net' : Net ρ ℝ) (h : WellShaped net ds es)
    (ht : Twins Rs net net') (x : Tensor ℝ) (hx : HasDims ds x) :
    ∃ y k k', predict E x net = (.ok y, k) ∧ predict E x net' = (.ok y, k') ∧ Twins Rs k k' := by
  obtain ⟨x, rfl⟩ := hx
  obtain ⟨hc, -, -⟩ := h
  obtain ⟨a1, a2, a3, opt, opt', a4, a5, a6⟩ := ht
  have e : ∀ f : List Nat → ℝ, (fun i => f (ren id id i)) = f := fun f => funext fun i => congrArg f (ren_id i)
  obtain ⟨p, ks, ks', r', h1, h2, h3, h4, h5, h6⟩ := renamed_chain E a1 hc net.rng x
  rw [e x, e p] at h2
  refine ⟨ofFn es p, { net with layers := ks, rng := r' }, { net' with layers := ks', rng := r' }, ?_, ?_,
    h4, a2, rfl, opt, opt', a4, a5, a6⟩
  · unfold predict
    rw [h1]
  · unfold predict
    rw [a3, h2]

/-- **C98, training.**  Training a model and the model with renamed hidden units on the same data succeeds for both, prints the same
losses, and the trained models are again renamings of each other: in their weights, and in what their optimizers remember. -/
theorem C98_train {ρ : Type} {Rs : List Renaming} {ds es : List Nat} (E : Engine ρ ℝ) (net net' : Net ρ ℝ) (h : WellShaped net ds es)
    (ht : Twins Rs net net') (inputs targets : List (Tensor ℝ)) (hlen : inputs.length ≤ targets.length) (hne : inputs ≠ [])
    (hx : ∀ x ∈ inputs, HasDims ds x) (hy : ∀ y ∈ targets, HasDims es y) (epochs : Int) :
    ∃ rs k k', trainCall E inputs targets epochs net = (.ok (), k, rs) ∧ trainCall E inputs targets epochs net' = (.ok (), k', rs) ∧
      rs.length = epochs.toNat ∧ Twins Rs k k' ∧ WellShaped k ds es := by
  have hn : (inputs.length : ℝ) ≠ 0 := by
    rw [Ne, Nat.cast_eq_zero, List.length_eq_zero_iff]
    exact hne
  obtain ⟨rs, k, k', e1, e2, e3, e4, e5⟩ := renamed_epochs (Rs := Rs) E (inputs.zip targets)
    (fun q hq => ⟨hx _ (List.of_mem_zip hq).1, hy _ (List.of_mem_zip hq).2⟩) epochs.toNat net net' h ht
  exact ⟨rs, k, k', (C55_train E inputs targets epochs net k rs hlen hn).2 e1, (C55_train E inputs targets epochs net' k' rs hlen hn).2 e2,
    e3, e4, e5⟩

/-- **C98, symmetric models.**  A model that is its own renaming stays its own renaming, whatever it is trained on. -/
theorem C98_symmetric {ρ : Type} {Rs : List Renaming} {ds es : List Nat} (E : Engine ρ ℝ) (net : Net ρ ℝ) (h : WellShaped net ds es)
    (ht : Twins Rs net net) (inputs targets : List (Tensor ℝ)) (hlen : inputs.length ≤ targets.length) (hne : inputs ≠ [])
    (hx : ∀ x ∈ inputs, HasDims ds x) (hy : ∀ y ∈ targets, HasDims es y) (epochs : Int) :
    ∃ rs k, trainCall E inputs targets epochs net = (.ok (), k, rs) ∧ Twins Rs k k ∧ WellShaped k ds es := by
  obtain ⟨rs, k, k', h1, h2, -, h4, h5⟩ := C98_train E net net h ht inputs targets hlen hne hx hy epochs
  have e := h1.symm.trans h2
  simp only [Prod.mk.injEq, true_and, and_true] at e
  rw [← e] at h4
  exact ⟨rs, k, h1, h4, h5⟩

/-! ### Equal units -/

/-- Layers `p` and `p + 2` are dense, and units `i` and `j` between them have equal incoming weights, equal biases and equal outgoing
weights. -/
def Spec.EqualUnits (ls : List (Layer ℝ)) (p i j : Nat) : Prop :=
  ∃ (f g : FC ℝ) (mode mode' : Bool) (n h m : Nat) (w b v : List Nat → ℝ), ls[p]? = some ⟨.fc f, mode⟩ ∧ ls[p + 2]? = some ⟨.fc g, mode'⟩ ∧
    f.weights = ofFn [n, h] w ∧ f.biases = ofFn [1, h] b ∧ g.weights = ofFn [h, m] v ∧ i < h ∧ j < h ∧
    (∀ q < n, w [q, i] = w [q, j]) ∧ b [0, i] = b [0, j] ∧ ∀ q < m, v [i, q] = v [j, q]

/-- Swap two units. -/
def swapUnits (i j x : Nat) : Nat := if x = i then j else if x = j then i else x

theorem swap_reorders {h i j : Nat} (hi : i < h) (hj : j < h) : Reorders h (swapUnits i j) := by
  constructor
  · intro x hx
    unfold swapUnits
    split_ifs <;> assumption
  · intro x hx y hy
    unfold swapUnits
    split_ifs <;> omega

theorem id_reorders (n : Nat) : Reorders n id := ⟨fun _ h => h, fun _ _ _ _ h => h⟩

theorem renamedAll_append {Rs Rs' : List Renaming} {σ τ υ : Nat → Nat} {ls ls' ms ms' : List (Layer ℝ)} (h : RenamedAll Rs σ τ ls ls')
    (h' : RenamedAll Rs' τ υ ms ms') : RenamedAll (Rs ++ Rs') σ υ (ls ++ ms) (ls' ++ ms') := by
  induction h with
  | nil => exact h'
  | cons a _ ih => exact .cons a (ih h')

theorem renamedAll_same (ls : List (Layer ℝ)) : RenamedAll (List.replicate ls.length .keep) id id ls ls := by
  induction ls with
  | nil => exact .nil _
  | cons l ls ih => exact .cons (.same l) ih

theorem renamedAll_get {Rs : List Renaming} {σ υ : Nat → Nat} {ls ls' : List (Layer ℝ)} (h : RenamedAll Rs σ υ ls ls') :
    ∀ {p : Nat} {R : Renaming}, Rs[p]? = some R → ∃ σ' τ' l l', ls[p]? = some l ∧ ls'[p]? = some l' ∧ Renamed R σ' τ' l l' := by
  induction h with
  | nil => intro p R hp; simp at hp
  | cons a _ ih =>
    intro p R hp
    cases p with
    | zero =>
      simp only [List.getElem?_cons_zero, Option.some.injEq] at hp
      subst hp
      exact ⟨_, _, _, _, rfl, rfl, a⟩
    | succ p =>
      simp only [List.getElem?_cons_succ] at hp ⊢
      exact ih hp

theorem split_three {A : Type} {ls : List A} {p : Nat} {a b c : A} (ha : ls[p]? = some a) (hb : ls[p + 1]? = some b)
    (hc : ls[p + 2]? = some c) : ls = ls.take p ++ a :: b :: c :: ls.drop (p + 3) ∧ (ls.take p).length = p := by
  obtain ⟨h1, rfl⟩ := List.getElem?_eq_some_iff.1 ha
  obtain ⟨h2, rfl⟩ := List.getElem?_eq_some_iff.1 hb
  obtain ⟨h3, rfl⟩ := List.getElem?_eq_some_iff.1 hc
  refine ⟨?_, by simp; omega⟩
  rw [← List.drop_eq_getElem_cons, ← List.drop_eq_getElem_cons, ← List.drop_eq_getElem_cons, List.take_append_drop]

theorem chain_dense {ls : List (Layer ℝ)} {ds es : List Nat} (h : Chain ls ds es) : ∀ {p : Nat} {f : FC ℝ} {mode : Bool},
    ls[p]? = some ⟨.fc f, mode⟩ → ∃ n m w b, f.weights = ofFn [n, m] w ∧ f.biases = ofFn [1, m] b := by
  induction h with
  | nil => intro p f mode hp; simp at hp
  | cons a _ ih =>
    intro p f mode hp
    cases p with
    | zero =>
      simp only [List.getElem?_cons_zero, Option.some.injEq] at hp
      subst hp
      cases a with
      | dense hx hw hg hlw hlb => exact ⟨_, _, _, _, hlw, hlb⟩
    | succ p => exact ih hp

/-- The renaming that swaps two units behind layer `p`. -/
def swapAt (len p n h m i j : Nat) : List Renaming :=
  List.replicate p .keep ++ (.units n h id (swapUnits i j) :: .keep :: .units h m (swapUnits i j) id :: List.replicate (len - (p + 3)) .keep)

theorem equal_is_symmetric {ls : List (Layer ℝ)} {ds es : List Nat} (hc : Chain ls ds es) {p i j : Nat} {a : ActLayer ℝ} {mode : Bool}
    (ha : ls[p + 1]? = some ⟨.activation a, mode⟩) (hs : a.activation ≠ .softmax) (h : EqualUnits ls p i j) :
    ∃ n k m, i < k ∧ j < k ∧ RenamedAll (swapAt ls.length p n k m i j) id id ls ls := by
  obtain ⟨f, g, mode₁, mode₂, n, k, m, w, b, v, h1, h2, hw, hb, hv, hi, hj, e1, e2, e3⟩ := h
  obtain ⟨k', m', v', c, hv', hcb⟩ := chain_dense hc h2
  have hd := ofFn_dims_inj (hv.symm.trans hv')
  simp only [List.cons.injEq, and_true] at hd
  obtain ⟨rfl, rfl⟩ := hd
  refine ⟨n, k, m, hi, hj, ?_⟩
  obtain ⟨hl, hp⟩ := split_three h1 ha h2
  have hlen : ls.length - (p + 3) = (ls.drop (p + 3)).length := by rw [List.length_drop]
  have key := renamedAll_append (renamedAll_same (ls.take p)) (.cons (R := .units n k id (swapUnits i j))
    (l := ⟨.fc f, mode₁⟩) (l' := ⟨.fc f, mode₁⟩) (.dense (id_reorders n) (swap_reorders hi hj) hw hb ?_ ?_)
    (.cons (.elementwise (a := a) (a' := a) (mode := mode) hs rfl) (.cons (R := .units k m (swapUnits i j) id) (l := ⟨.fc g, mode₂⟩)
      (l' := ⟨.fc g, mode₂⟩) (.dense (swap_reorders hi hj) (id_reorders m) hv hcb ?_ ?_) (renamedAll_same (ls.drop (p + 3))))))
  · rw [← hl, hp, ← hlen] at key
    exact key
  · refine hw.trans (ofFn_congr fun x hx => ?_)
    obtain ⟨q, u, rfl, hq, hu⟩ := valid2_iff.1 hx
    show w [q, u] = w [q, swapUnits i j u]
    unfold swapUnits
    split_ifs with q1 q2
    · rw [q1, e1 q hq]
    · rw [q2, e1 q hq]
    · rfl
  · refine hb.trans (ofFn_congr fun x hx => ?_)
    obtain ⟨q, u, rfl, hq, hu⟩ := valid2_iff.1 hx
    obtain rfl : q = 0 := by omega
    show b [0, u] = b [0, swapUnits i j u]
    unfold swapUnits
    split_ifs with q1 q2
    · rw [q1, e2]
    · rw [q2, e2]
    · rfl
  · refine hv.trans (ofFn_congr fun x hx => ?_)
    obtain ⟨u, q, rfl, hu, hq⟩ := valid2_iff.1 hx
    show v [u, q] = v [swapUnits i j u, q]
    unfold swapUnits
    split_ifs with q1 q2
    · rw [q1, e3 q hq]
    · rw [q2, e3 q hq]
    · rfl
  · refine hcb.trans (ofFn_congr fun x hx => ?_)
    rw [ren_id]

theorem symmetric_is_equal {ls : List (Layer ℝ)} {len p n k m i j : Nat} (hi : i < k) (hj : j < k)
    (h : RenamedAll (swapAt len p n k m i j) id id ls ls) : EqualUnits ls p i j := by
  have g1 : (swapAt len p n k m i j)[p]? = some (.units n k id (swapUnits i j)) := by
    unfold swapAt
    rw [List.getElem?_append_right (by simp)]
    simp
  have g2 : (swapAt len p n k m i j)[p + 2]? = some (.units k m (swapUnits i j) id) := by
    unfold swapAt
    rw [List.getElem?_append_right (by simp)]
    simp
  obtain ⟨σ, τ, l, l', a1, a2, a3⟩ := renamedAll_get h g1
  obtain rfl : l = l' := Option.some.inj (a1.symm.trans a2)
  obtain ⟨σ', τ', g, g', b1, b2, b3⟩ := renamedAll_get h g2
  obtain rfl : g = g' := Option.some.inj (b1.symm.trans b2)
  have s : swapUnits i j i = j := if_pos rfl
  generalize hl : l = l₁ at a3
  generalize hg : g = g₁ at b3
  cases a3 with
  | @dense _ _ _ _ w bias f f' mode hσ hτ hw hb hw' hb' =>
    cases b3 with
    | @dense _ _ _ _ v c f₂ f₂' mode₂ hσ₂ hτ₂ hv hc hv' hc' =>
      subst hl hg
      refine ⟨f, f₂, mode, mode₂, n, k, m, w, bias, v, a1, b1, hw, hb, hv, hi, hj, fun q hq => ?_, ?_, fun q hq => ?_⟩
      · have := ofFn_inj (hw.symm.trans hw') (idx := [q, i]) (valid2_iff.2 ⟨_, _, rfl, hq, hi⟩)
        rw [this]
        show w [q, swapUnits i j i] = _
        rw [s]
      · have := ofFn_inj (hb.symm.trans hb') (idx := [0, i]) (valid2_iff.2 ⟨_, _, rfl, by omega, hi⟩)
        rw [this]
        show bias [0, swapUnits i j i] = _
        rw [s]
      · have := ofFn_inj (hv.symm.trans hv') (idx := [i, q]) (valid2_iff.2 ⟨_, _, rfl, hi, hq⟩)
        rw [this]
        show v [swapUnits i j i, q] = _
        rw [s]

/-- The optimizer has just been constructed. -/
def Spec.FreshOptimizer (opt : Optimizer (Nat × Bool) ℝ) : Prop :=
  (∃ o, opt = .newSGD o) ∨ (∃ o, opt = .newRMSProp o) ∨ ∃ o, opt = .newAdam o

theorem fresh_twin {fr : Nat × Bool → Frame} {opt : Optimizer (Nat × Bool) ℝ} (h : FreshOptimizer opt) : OptTwin fr opt opt := by
  have e : MapTwin fr (fun _ => none) (fun _ => none) := fun k => Or.inl ⟨rfl, rfl⟩
  rcases h with ⟨o, rfl⟩ | ⟨o, rfl⟩ | ⟨o, rfl⟩
  · exact ⟨rfl, e⟩
  · exact ⟨rfl, e, e, e⟩
  · exact ⟨rfl, rfl, rfl, e, e⟩

/-- **C98, equal units.**  Two hidden units between dense layers, with an elementwise activation, that start with equal incoming weights,
equal biases and equal outgoing weights still have them after any training: they never learn different things. -/
theorem C98_equal_units {ρ : Type} {ds es : List Nat} (E : Engine ρ ℝ) (net : Net ρ ℝ) (h : WellShaped net ds es)
    {opt : Optimizer (Nat × Bool) ℝ} (ho : net.optimizer = some opt) (hf : FreshOptimizer opt) {p i j : Nat} {a : ActLayer ℝ} {mode : Bool}
    (ha : net.layers[p + 1]? = some ⟨.activation a, mode⟩) (hs : a.activation ≠ .softmax) (he : EqualUnits net.layers p i j)
    (inputs targets : List (Tensor ℝ)) (hlen : inputs.length ≤ targets.length) (hne : inputs ≠ []) (hx : ∀ x ∈ inputs, HasDims ds x)
    (hy : ∀ y ∈ targets, HasDims es y) (epochs : Int) :
    ∃ rs k, trainCall E inputs targets epochs net = (.ok (), k, rs) ∧ EqualUnits k.layers p i j := by
  obtain ⟨n, k, m, hi, hj, hr⟩ := equal_is_symmetric h.1 ha hs he
  obtain ⟨rs, k, h1, h2, -⟩ := C98_symmetric E net h ⟨hr, rfl, rfl, opt, opt, ho, ho, fresh_twin hf⟩ inputs targets hlen hne hx hy epochs
  exact ⟨rs, k, h1, symmetric_is_equal hi hj h2.1⟩

/-! ### A concrete model -/

/-- Three hidden units; the first and the third have equal weights. -/
noncomputable def exTriple (w : List Nat → ℝ) (o : AdamOptions ℝ) : Net Unit ℝ :=
  Net.compile .mse (.newAdam o) { layers := [⟨.fc { weights := ofFn [2, 3] fun i => if i.getD 1 0 = 1 then w i else 7, biases := ofFn [1, 3] fun _ => 0 }, true⟩,
      ⟨.activation { activation := .tanh }, true⟩,
      ⟨.fc { weights := ofFn [3, 1] fun i => if i.getD 0 0 = 1 then w i else -7, biases := ofFn [1, 1] fun _ => 1 }, true⟩], rng := () }

/-- The hypotheses of `C98_equal_units` are met, for any weights of the second unit. -/
example (w : List Nat → ℝ) (o : AdamOptions ℝ) : WellShaped (exTriple w o) [5, 2] [5, 1] ∧
    (exTriple w o).optimizer = some (.newAdam o) ∧ FreshOptimizer (.newAdam o) ∧
    (exTriple w o).layers[0 + 1]? = some ⟨.activation { activation := .tanh }, true⟩ ∧ EqualUnits (exTriple w o).layers 0 0 2 := by
  have d : ∀ {ds : List Nat}, ds ≠ [] → (∀ a ∈ ds, 0 < a) → ds.prod < 2 ^ 31 → Dims ds := fun a b c => ⟨a, b, c⟩
  have hd : Dims [5, 1] := d (by simp) (by simp) (by simp)
  refine ⟨(C67_compiled (ds := [5, 2]) (es := [5, 1]) _ .mse ?_ hd ⟨0, 0, 0, 0, false⟩ ⟨0, 0, 0, 0, false, 0⟩ o).2.2, rfl,
    Or.inr (Or.inr ⟨o, rfl⟩), rfl, _, _, _, _, 2, 3, 1, _, _, _, rfl, rfl, rfl, rfl, rfl, by omega, by omega, ?_, ?_, ?_⟩
  · refine .cons (es := [5, 3]) (.dense (d (by simp) (by simp) (by simp)) (d (by simp) (by simp) (by simp))
      (d (by simp) (by simp) (by simp)) rfl rfl) ?_
    refine .cons (es := [5, 3]) (.elementwise (d (by simp) (by simp) (by simp)) (by intro h; cases h)) ?_
    exact .cons (es := [5, 1]) (.dense (d (by simp) (by simp) (by simp)) (d (by simp) (by simp) (by simp))
      (d (by simp) (by simp) (by simp)) rfl rfl) (.nil _)
  · intro q _
    simp
  · rfl
  · intro q _
    simp

/-- The hypotheses of `C98_train` are met by two different models: three hidden units, rotated. -/
example (w b v c : List Nat → ℝ) (o : SGDOptions ℝ) :
    let σ : Nat → Nat := fun i => (i + 1) % 3
    let net (w b v : List Nat → ℝ) : Net Unit ℝ := Net.compile .mse (.newSGD o) { layers := [⟨.fc { weights := ofFn [2, 3] w, biases := ofFn [1, 3] b }, true⟩,
      ⟨.activation { activation := .relu }, true⟩, ⟨.fc { weights := ofFn [3, 1] v, biases := ofFn [1, 1] c }, true⟩], rng := () }
    Twins [.units 2 3 id σ, .keep, .units 3 1 σ id] (net w b v)
      (net (fun i => w [i.getD 0 0, σ (i.getD 1 0)]) (fun i => b [0, σ (i.getD 1 0)]) fun i => v [σ (i.getD 0 0), i.getD 1 0]) := by
  intro σ net
  have hσ : Reorders 3 σ := by
    refine ⟨fun i _ => Nat.mod_lt _ (by norm_num), fun i hi j hj h => ?_⟩
    simp only [σ] at h
    omega
  refine ⟨.cons (.dense (id_reorders 2) hσ rfl rfl (ofFn_congr fun i hi => ?_) (ofFn_congr fun i hi => ?_))
    (.cons (.elementwise (by intro h; cases h) rfl) (.cons (.dense hσ (id_reorders 1) rfl rfl (ofFn_congr fun i hi => ?_)
      (ofFn_congr fun i hi => ?_)) (.nil _))), rfl, rfl, _, _, rfl, rfl, fresh_twin (Or.inl ⟨o, rfl⟩)⟩
  · obtain ⟨q, u, rfl, hq, hu⟩ := valid2_iff.1 hi
    rfl
  · obtain ⟨q, u, rfl, hq, hu⟩ := valid2_iff.1 hi
    obtain rfl : q = 0 := by omega
    rfl
  · obtain ⟨q, u, rfl, hq, hu⟩ := valid2_iff.1 hi
    rfl
  · rw [ren_id]

end SmartDNN
