import Verif.Proofs.Superposed

/-!
# Linear regression is linear in the targets and the initial parameters (C121)
-/

namespace SmartDNN
open Net Spec

variable {ρ : Type}

theorem superposed_steps (E : Engine ρ ℝ) {α β : ℝ} {ds : List Nat} {p b n m : Nat} (hx : Dims [b, n]) (hw : Dims [n, m]) (hg : Dims [b, m]) :
    ∀ (ps : List ((List Nat → ℝ) × (List Nat → ℝ) × (List Nat → ℝ))) {net₁ net₂ net₃ : Net ρ ℝ}, Superposed α β ds p b n m net₁ net₂ net₃ →
    ∃ es₁ es₂ es₃ k₁ k₂ k₃, Steps E (ps.map fun p => (ofFn ds p.1, ofFn [b, m] p.2.1)) net₁ k₁ es₁ ∧
      Steps E (ps.map fun p => (ofFn ds p.1, ofFn [b, m] p.2.2)) net₂ k₂ es₂ ∧
      Steps E (ps.map fun p => (ofFn ds p.1, ofFn [b, m] (combine α β p.2.1 p.2.2))) net₃ k₃ es₃ ∧ Superposed α β ds p b n m k₁ k₂ k₃ := by
  intro ps
  induction ps with
  | nil => exact fun h => ⟨[], [], [], _, _, _, .nil _, .nil _, .nil _, h⟩
  | cons q ps ih =>
    intro net₁ net₂ net₃ h
    obtain ⟨e₁, e₂, e₃, k₁, k₂, k₃, s₁, s₂, s₃, hk⟩ := superposed_trainStep E hx hw hg h q.1 q.2.1 q.2.2
    obtain ⟨es₁, es₂, es₃, j₁, j₂, j₃, t₁, t₂, t₃, hj⟩ := ih hk
    exact ⟨_, _, _, j₁, j₂, j₃, .cons s₁ t₁, .cons s₂ t₂, .cons s₃ t₃, hj⟩

theorem superposed_epochs (E : Engine ρ ℝ) {α β : ℝ} {ds : List Nat} {p b n m : Nat} (hx : Dims [b, n]) (hw : Dims [n, m]) (hg : Dims [b, m])
    (ps : List ((List Nat → ℝ) × (List Nat → ℝ) × (List Nat → ℝ))) : ∀ (N : Nat) {net₁ net₂ net₃ : Net ρ ℝ}, Superposed α β ds p b n m net₁ net₂ net₃ →
    ∃ rs₁ rs₂ rs₃ k₁ k₂ k₃, Epochs E (ps.map fun p => (ofFn ds p.1, ofFn [b, m] p.2.1)) N net₁ k₁ rs₁ ∧
      Epochs E (ps.map fun p => (ofFn ds p.1, ofFn [b, m] p.2.2)) N net₂ k₂ rs₂ ∧
      Epochs E (ps.map fun p => (ofFn ds p.1, ofFn [b, m] (combine α β p.2.1 p.2.2))) N net₃ k₃ rs₃ ∧ Superposed α β ds p b n m k₁ k₂ k₃ := by
  intro N
  induction N with
  | zero => exact fun h => ⟨[], [], [], _, _, _, .zero _, .zero _, .zero _, h⟩
  | succ N ih =>
    intro net₁ net₂ net₃ h
    obtain ⟨_, _, _, k₁, k₂, k₃, s₁, s₂, s₃, hk⟩ := superposed_steps E hx hw hg ps h
    obtain ⟨_, _, _, j₁, j₂, j₃, t₁, t₂, t₃, hj⟩ := ih hk
    exact ⟨_, _, _, j₁, j₂, j₃, .succ s₁ t₁, .succ s₂ t₂, .succ s₃ t₃, hj⟩

/-- **C121, training.**  Three models with the same layers in front of the dense layer, trained on the same inputs; the parameters of the third (and the momentum its optimizer
remembers) are combined from those of the others, and so are its targets.  All succeed, and the parameters of the third are combined from those of the others again. -/
theorem C121_train (E : Engine ρ ℝ) {α β : ℝ} {ds : List Nat} {p b n m : Nat} (hx : Dims [b, n]) (hw : Dims [n, m]) (hg : Dims [b, m]) {net₁ net₂ net₃ : Net ρ ℝ}
    (h : Superposed α β ds p b n m net₁ net₂ net₃) (ps : List ((List Nat → ℝ) × (List Nat → ℝ) × (List Nat → ℝ))) (hne : ps ≠ []) (epochs : Int) :
    ∃ rs₁ rs₂ rs₃ k₁ k₂ k₃, trainCall E (ps.map fun p => ofFn ds p.1) (ps.map fun p => ofFn [b, m] p.2.1) epochs net₁ = (.ok (), k₁, rs₁) ∧
      trainCall E (ps.map fun p => ofFn ds p.1) (ps.map fun p => ofFn [b, m] p.2.2) epochs net₂ = (.ok (), k₂, rs₂) ∧
      trainCall E (ps.map fun p => ofFn ds p.1) (ps.map fun p => ofFn [b, m] (combine α β p.2.1 p.2.2)) epochs net₃ = (.ok (), k₃, rs₃) ∧
      Superposed α β ds p b n m k₁ k₂ k₃ := by
  have hz : ∀ (f g : (List Nat → ℝ) × (List Nat → ℝ) × (List Nat → ℝ) → Tensor ℝ), (ps.map f).zip (ps.map g) = ps.map fun p => (f p, g p) :=
    fun f g => List.zip_map' ..
  have hn : ∀ f : (List Nat → ℝ) × (List Nat → ℝ) × (List Nat → ℝ) → Tensor ℝ, ((ps.map f).length : ℝ) ≠ 0 := fun f => by
    rw [Ne, Nat.cast_eq_zero, List.length_eq_zero_iff, List.map_eq_nil_iff]
    exact hne
  obtain ⟨rs₁, rs₂, rs₃, k₁, k₂, k₃, t₁, t₂, t₃, hk⟩ := superposed_epochs E hx hw hg ps epochs.toNat h
  rw [← hz] at t₁ t₂ t₃
  exact ⟨rs₁, rs₂, rs₃, k₁, k₂, k₃, (C55_train E _ _ epochs net₁ k₁ rs₁ (by simp) (hn _)).2 t₁, (C55_train E _ _ epochs net₂ k₂ rs₂ (by simp) (hn _)).2 t₂,
    (C55_train E _ _ epochs net₃ k₃ rs₃ (by simp) (hn _)).2 t₃, hk⟩

/-- The model after calls of `train` with the targets that `pick` makes of the two given ones. -/
noncomputable def Spec.taught (E : Engine ρ ℝ) (ds es : List Nat) (pick : (List Nat → ℝ) → (List Nat → ℝ) → List Nat → ℝ) (net : Net ρ ℝ)
    (cs : List (List ((List Nat → ℝ) × (List Nat → ℝ) × (List Nat → ℝ)) × Int)) : Net ρ ℝ :=
  cs.foldl (fun net c => (trainCall E (c.1.map fun p => ofFn ds p.1) (c.1.map fun p => ofFn es (pick p.2.1 p.2.2)) c.2 net).2.1) net

theorem superposed_calls (E : Engine ρ ℝ) {α β : ℝ} {ds : List Nat} {p b n m : Nat} (hx : Dims [b, n]) (hw : Dims [n, m]) (hg : Dims [b, m]) :
    ∀ (cs : List (List ((List Nat → ℝ) × (List Nat → ℝ) × (List Nat → ℝ)) × Int)) {net₁ net₂ net₃ : Net ρ ℝ}, Superposed α β ds p b n m net₁ net₂ net₃ →
    (∀ c ∈ cs, c.1 ≠ []) → Superposed α β ds p b n m (taught E ds [b, m] (fun t _ => t) net₁ cs) (taught E ds [b, m] (fun _ t => t) net₂ cs)
      (taught E ds [b, m] (combine α β) net₃ cs) := by
  intro cs
  induction cs with
  | nil => exact fun h _ => h
  | cons c cs ih =>
    intro net₁ net₂ net₃ h hne
    obtain ⟨_, _, _, k₁, k₂, k₃, t₁, t₂, t₃, hk⟩ := C121_train E hx hw hg h c.1 (hne c List.mem_cons_self) c.2
    have a₁ : taught E ds [b, m] (fun t _ => t) net₁ (c :: cs) = taught E ds [b, m] (fun t _ => t) k₁ cs := congrArg (fun q => taught E ds [b, m] (fun t _ => t) q.2.1 cs) t₁
    have a₂ : taught E ds [b, m] (fun _ t => t) net₂ (c :: cs) = taught E ds [b, m] (fun _ t => t) k₂ cs := congrArg (fun q => taught E ds [b, m] (fun _ t => t) q.2.1 cs) t₂
    have a₃ : taught E ds [b, m] (combine α β) net₃ (c :: cs) = taught E ds [b, m] (combine α β) k₃ cs := congrArg (fun q => taught E ds [b, m] (combine α β) q.2.1 cs) t₃
    rw [a₁, a₂, a₃]
    exact ih hk fun d hd => hne d (List.mem_cons_of_mem _ hd)

theorem fresh_regression {pre : List (Layer ℝ)} {n m : Nat} (o : SGDOptions ℝ) (r : ρ) (f : FC ℝ) (mode : Bool) {w c : List Nat → ℝ} (hw : f.weights = ofFn [n, m] w)
    (hc : f.biases = ofFn [1, m] c) :
    Regression pre n m o r ⟨pre ++ [⟨.fc f, mode⟩], some .mse, some (.newSGD o), r⟩ w c (fun _ => 0) fun _ => 0 :=
  ⟨⟨f, mode, rfl, hw, hc⟩, rfl, rfl, _, rfl, full_shapeOf [n, m] 0, full_shapeOf [1, m] 0⟩

/-- **C121.**  A dense layer is the last layer, behind layers without parameters; the model is compiled with the squared error and a fresh SGD, with any learning rate, momentum,
dampening, Nesterov momentum and weight decay.  Three such models are trained by any calls of `train` on the same inputs: the first with some targets, the second with others, the
third with their combinations `α t₁ + β t₂`, having started from the combination of the initial parameters.  In the end the parameters of the third are the combination of those of
the others, and so are its answers to all questions: training on the sum of two sets of targets is the sum of training on each, and twice the targets give twice the answers. -/
theorem C121_superposition {ds : List Nat} {b n m : Nat} (E : Engine ρ ℝ) (pre : List (Layer ℝ)) (hc : Chain pre ds [b, n]) (hpre : ∀ l ∈ pre, params l = none)
    (hx : Dims [b, n]) (hd : Dims [n, m]) (hg : Dims [b, m]) (o : SGDOptions ℝ) (r : ρ) (mode : Bool) (α β : ℝ) (w₁ c₁ w₂ c₂ : List Nat → ℝ) (f₁ f₂ f₃ : FC ℝ)
    (hw₁ : f₁.weights = ofFn [n, m] w₁) (hc₁ : f₁.biases = ofFn [1, m] c₁) (hw₂ : f₂.weights = ofFn [n, m] w₂) (hc₂ : f₂.biases = ofFn [1, m] c₂)
    (hw₃ : f₃.weights = ofFn [n, m] fun i => α * w₁ i + β * w₂ i) (hc₃ : f₃.biases = ofFn [1, m] fun i => α * c₁ i + β * c₂ i)
    (cs : List (List ((List Nat → ℝ) × (List Nat → ℝ) × (List Nat → ℝ)) × Int)) (hcs : ∀ d ∈ cs, d.1 ≠ []) :
    let net (f : FC ℝ) : Net ρ ℝ := ⟨pre ++ [⟨.fc f, mode⟩], some .mse, some (.newSGD o), r⟩
    let net₁ := taught E ds [b, m] (fun t _ => t) (net f₁) cs
    let net₂ := taught E ds [b, m] (fun _ t => t) (net f₂) cs
    let net₃ := taught E ds [b, m] (fun t t' i => α * t i + β * t' i) (net f₃) cs
    (∃ (g₁ g₂ g₃ : FC ℝ) (md₁ md₂ md₃ : Bool) (v₁ e₁ v₂ e₂ : List Nat → ℝ), net₁.layers[pre.length]? = some ⟨.fc g₁, md₁⟩ ∧ net₂.layers[pre.length]? = some ⟨.fc g₂, md₂⟩ ∧
      net₃.layers[pre.length]? = some ⟨.fc g₃, md₃⟩ ∧ g₁.weights = ofFn [n, m] v₁ ∧ g₁.biases = ofFn [1, m] e₁ ∧ g₂.weights = ofFn [n, m] v₂ ∧ g₂.biases = ofFn [1, m] e₂ ∧
      (g₃.weights = ofFn [n, m] fun i => α * v₁ i + β * v₂ i) ∧ g₃.biases = ofFn [1, m] fun i => α * e₁ i + β * e₂ i) ∧
    ∀ x, ∃ y₁ y₂, (predict E (ofFn ds x) net₁).1 = .ok (ofFn [b, m] y₁) ∧ (predict E (ofFn ds x) net₂).1 = .ok (ofFn [b, m] y₂) ∧
      (predict E (ofFn ds x) net₃).1 = .ok (ofFn [b, m] fun i => α * y₁ i + β * y₂ i) := by
  intro net net₁ net₂ net₃
  have hz : (combine α β (fun _ => 0) fun _ => 0) = fun _ => 0 := by
    funext i
    simp [combine]
  have R₃ := fresh_regression (pre := pre) o r f₃ mode hw₃ hc₃
  rw [← hz] at R₃
  have hS : Superposed α β ds pre.length b n m (net f₁) (net f₂) (net f₃) :=
    ⟨pre, o, r, w₁, c₁, fun _ => 0, fun _ => 0, w₂, c₂, fun _ => 0, fun _ => 0, rfl, hc, hpre, fresh_regression o r f₁ mode hw₁ hc₁, fresh_regression o r f₂ mode hw₂ hc₂, R₃⟩
  obtain ⟨pre', o', r', v₁, e₁, _, _, v₂, e₂, _, _, hl, hc', hp', Q₁, Q₂, Q₃⟩ := superposed_calls E hx hd hg cs hS hcs
  refine ⟨?_, fun x => ?_⟩
  · obtain ⟨⟨g₁, md₁, a1, a2, a3⟩, -⟩ := Q₁
    obtain ⟨⟨g₂, md₂, b1, b2, b3⟩, -⟩ := Q₂
    obtain ⟨⟨g₃, md₃, d1, d2, d3⟩, -⟩ := Q₃
    have hget : ∀ l : Layer ℝ, (pre' ++ [l])[pre.length]? = some l := fun l => by
      rw [← hl, List.getElem?_append_right (le_refl _)]
      simp
    refine ⟨g₁, g₂, g₃, md₁, md₂, md₃, v₁, e₁, v₂, e₂, (congrArg (·[pre.length]?) a1).trans (hget _), (congrArg (·[pre.length]?) b1).trans (hget _),
      (congrArg (·[pre.length]?) d1).trans (hget _), a2, a3, b2, b3, d2, d3⟩
  · obtain ⟨y, _, _, -, -, -, hy⟩ := regression_step E hx hd hg hc' hp' r' x
    obtain ⟨⟨_, p₁⟩, -⟩ := hy _ _ _ _ _ _ Q₁
    obtain ⟨⟨_, p₂⟩, -⟩ := hy _ _ _ _ _ _ Q₂
    obtain ⟨⟨_, p₃⟩, -⟩ := hy _ _ _ _ _ _ Q₃
    rw [affine_combine] at p₃
    exact ⟨_, _, congrArg Prod.fst p₁, congrArg Prod.fst p₂, congrArg Prod.fst p₃⟩

/-- **C121, averages.**  Training one initial model on the average of two sets of targets gives the average of the two trained models: its answers are the averages of theirs. -/
theorem C121_average {ds : List Nat} {b n m : Nat} (E : Engine ρ ℝ) (pre : List (Layer ℝ)) (hc : Chain pre ds [b, n]) (hpre : ∀ l ∈ pre, params l = none)
    (hx : Dims [b, n]) (hd : Dims [n, m]) (hg : Dims [b, m]) (o : SGDOptions ℝ) (r : ρ) (mode : Bool) (w c : List Nat → ℝ) (f : FC ℝ)
    (hw : f.weights = ofFn [n, m] w) (hb : f.biases = ofFn [1, m] c) (cs : List (List ((List Nat → ℝ) × (List Nat → ℝ) × (List Nat → ℝ)) × Int)) (hcs : ∀ d ∈ cs, d.1 ≠ []) :
    let net : Net ρ ℝ := ⟨pre ++ [⟨.fc f, mode⟩], some .mse, some (.newSGD o), r⟩
    ∀ x, ∃ y₁ y₂, (predict E (ofFn ds x) (taught E ds [b, m] (fun t _ => t) net cs)).1 = .ok (ofFn [b, m] y₁) ∧
      (predict E (ofFn ds x) (taught E ds [b, m] (fun _ t => t) net cs)).1 = .ok (ofFn [b, m] y₂) ∧
      (predict E (ofFn ds x) (taught E ds [b, m] (fun t t' i => (t i + t' i) / 2) net cs)).1 = .ok (ofFn [b, m] fun i => (y₁ i + y₂ i) / 2) := by
  intro net x
  have e : ∀ s t : ℝ, 1 / 2 * s + 1 / 2 * t = (s + t) / 2 := fun s t => by ring
  have h := (C121_superposition E pre hc hpre hx hd hg o r mode (1 / 2) (1 / 2) w c w c f f f hw hb hw hb (hw.trans (congrArg _ (funext fun i => by ring)))
    (hb.trans (congrArg _ (funext fun i => by ring))) cs hcs).2 x
  simp only [e] at h
  exact h

/-- **C121, influence.**  What a change of the targets does to a trained model does not depend on the targets or the initial parameters: the answers change by what the model answers when its
parameters start at zero and it is trained on the changes instead of the targets. -/
theorem C121_influence {ds : List Nat} {b n m : Nat} (E : Engine ρ ℝ) (pre : List (Layer ℝ)) (hc : Chain pre ds [b, n]) (hpre : ∀ l ∈ pre, params l = none)
    (hx : Dims [b, n]) (hd : Dims [n, m]) (hg : Dims [b, m]) (o : SGDOptions ℝ) (r : ρ) (mode : Bool) (w c : List Nat → ℝ) (f zero : FC ℝ)
    (hw : f.weights = ofFn [n, m] w) (hb : f.biases = ofFn [1, m] c) (hzw : zero.weights = ofFn [n, m] fun _ => 0) (hzb : zero.biases = ofFn [1, m] fun _ => 0)
    (cs : List (List ((List Nat → ℝ) × (List Nat → ℝ) × (List Nat → ℝ)) × Int)) (hcs : ∀ d ∈ cs, d.1 ≠ []) :
    let net (f : FC ℝ) : Net ρ ℝ := ⟨pre ++ [⟨.fc f, mode⟩], some .mse, some (.newSGD o), r⟩
    ∀ x, ∃ y δ, (predict E (ofFn ds x) (taught E ds [b, m] (fun t _ => t) (net f) cs)).1 = .ok (ofFn [b, m] y) ∧
      (predict E (ofFn ds x) (taught E ds [b, m] (fun _ change => change) (net zero) cs)).1 = .ok (ofFn [b, m] δ) ∧
      (predict E (ofFn ds x) (taught E ds [b, m] (fun t change i => t i + change i) (net f) cs)).1 = .ok (ofFn [b, m] fun i => y i + δ i) := by
  intro net x
  have h := (C121_superposition E pre hc hpre hx hd hg o r mode 1 1 w c (fun _ => 0) (fun _ => 0) f zero f hw hb hzw hzb (hw.trans (congrArg _ (funext fun i => by ring)))
    (hb.trans (congrArg _ (funext fun i => by ring))) cs hcs).2 x
  simp only [one_mul] at h
  exact h

/-! ### A concrete model -/

/-- Hypotheses of `C121_superposition` are met: images of 2 × 2 pixels, flattened, with dropout, and a dense layer with three outputs. -/
example (w₁ c₁ w₂ c₂ x t : List Nat → ℝ) (q : ℝ) :
    let pre : List (Layer ℝ) := [⟨.flatten ⟨none⟩, true⟩, ⟨.dropout { dropoutRate := q }, true⟩]
    let f₃ : FC ℝ := { weights := ofFn [4, 3] fun i => 2 * w₁ i + -1 * w₂ i, biases := ofFn [1, 3] fun i => 2 * c₁ i + -1 * c₂ i }
    let cs : List (List ((List Nat → ℝ) × (List Nat → ℝ) × (List Nat → ℝ)) × Int) := [([(x, t, w₁), (t, x, c₁)], 7), ([(x, t, t)], 2)]
    Chain pre [5, 1, 2, 2] [5, 4] ∧ (∀ l ∈ pre, params l = none) ∧ Dims [5, 4] ∧ Dims [4, 3] ∧ Dims [5, 3] ∧
    (f₃.weights = ofFn [4, 3] fun i => 2 * w₁ i + -1 * w₂ i) ∧ ∀ d ∈ cs, d.1 ≠ [] := by
  intro pre f₃ cs
  have d : ∀ {ds : List Nat}, ds ≠ [] → (∀ a ∈ ds, 0 < a) → ds.prod < 2 ^ 31 → Dims ds := fun a b c => ⟨a, b, c⟩
  refine ⟨?_, ?_, d (by simp) (by simp) (by simp), d (by simp) (by simp) (by simp), d (by simp) (by simp) (by simp), rfl, ?_⟩
  · refine .cons (es := [5, 4]) (.flatten (d := 5) (ds := [1, 2, 2]) (d (by simp) (by simp) (by simp)) (by simp)) ?_
    exact .cons (es := [5, 4]) (.dropout (d (by simp) (by simp) (by simp))) (.nil _)
  · intro a ha
    simp only [pre, List.mem_cons, List.not_mem_nil, or_false] at ha
    rcases ha with rfl | rfl <;> rfl
  · intro e he
    simp only [cs, List.mem_cons, List.not_mem_nil, or_false] at he
    rcases he with rfl | rfl <;> simp

end SmartDNN
