import Verif.Proofs.Answers

/-!
# Data of the wrong shape (C99)
-/

namespace SmartDNN
open Net Spec

variable {ρ : Type}

/-! ### Prediction -/

/-- **C99.** `predict` on data of any dimensions does what the table says: it returns data of the dimensions in the table, or throws, or
stops the program; the model keeps its layers, their sizes and their parameters. -/
theorem C99_predict (E : Engine ρ ℝ) (net : Net ρ ℝ) {ps : List Plan} (h : List.Forall₂ Follows net.layers ps) {ds : List Nat}
    (hf : HasRoom ps ds) (x : List Nat → ℝ) :
    Outcome (predict E (ofFn ds x) net).1 (run ps ds) ∧ List.Forall₂ Follows (predict E (ofFn ds x) net).2.layers ps ∧
      (predict E (ofFn ds x) net).2.layers.map params = net.layers.map params := by
  obtain ⟨ls', r', h1, h2, h3, h4, -⟩ := follows_run E h net.rng x hf
  unfold predict
  rcases hfl : forwardLayers E net.layers (ofFn ds x) net.rng with ⟨res, st⟩
  rw [hfl] at h1 h2
  simp only at h1 h2
  subst h1
  exact ⟨h2, h3, h4⟩

/-- In particular `predict` never runs into undefined behaviour, whatever the dimensions of the data. -/
theorem C99_predict_defined (E : Engine ρ ℝ) (net : Net ρ ℝ) {ps : List Plan} (h : List.Forall₂ Follows net.layers ps)
    {ds : List Nat} (hf : HasRoom ps ds) (x : List Nat → ℝ) :
    (predict E (ofFn ds x) net).1 ≠ .error .ub ∧ (predict E (ofFn ds x) net).1 ≠ .error .diverge := by
  have h1 := (C99_predict E net h hf x).1
  rcases hr : run ps ds with es | _ | _
  · rw [hr] at h1
    obtain ⟨f, h1⟩ := h1
    rw [h1]
    exact ⟨nofun, nofun⟩
  · rw [hr] at h1
    obtain ⟨e, h1, h2⟩ := h1
    rw [h1]
    exact ⟨by rintro ⟨⟩; (cases h2), by rintro ⟨⟩; (cases h2)⟩
  · rw [hr] at h1
    rw [show (predict E (ofFn ds x) net).1 = .error .abort from h1]
    exact ⟨nofun, nofun⟩

theorem answer_aborts {p : Plan} {ds : List Nat} (h : p.answer ds = .aborts) : ∃ ic oc kh kw, p = .conv ic oc kh kw := by
  cases p with
  | conv ic oc kh kw => exact ⟨_, _, _, _, rfl⟩
  | _ =>
    exfalso
    unfold Plan.answer at h
    split at h <;> (try split at h) <;> simp_all

theorem run_aborts {ps : List Plan} : ∀ {ds : List Nat}, run ps ds = .aborts → ∃ ic oc kh kw, Plan.conv ic oc kh kw ∈ ps := by
  induction ps with
  | nil => exact fun h => by cases h
  | cons p ps ih =>
    intro ds h
    unfold run at h
    rcases ha : p.answer ds with es | _ | _
    · rw [ha] at h
      obtain ⟨ic, oc, kh, kw, hm⟩ := ih h
      exact ⟨ic, oc, kh, kw, by simp [hm]⟩
    · rw [ha] at h
      cases h
    · obtain ⟨ic, oc, kh, kw, rfl⟩ := answer_aborts ha
      exact ⟨ic, oc, kh, kw, by simp⟩

/-! ### Training -/

theorem predict_planned {E : Engine ρ ℝ} {net net1 : Net ρ ℝ} {ps : List Plan} {L : Loss ℝ} {deep : Bool} {x : Tensor ℝ}
    {res : Res (Tensor ℝ)} (hn : Planned net ps L) (ht : TrainablePlan deep ps) (hx : Sample ps deep x)
    (h : predict E x net = (res, net1)) :
    Planned net1 ps L ∧
    ((∃ e, res = .error e ∧ (e.isException = true ∨ e = .abort ∧ ∃ ic oc kh kw, Plan.conv ic oc kh kw ∈ ps)) ∨
    ∃ es p, res = .ok (ofFn es p) ∧ Dims es ∧ ∀ g,
      (∃ e, (backward (ofFn es g) net1).1 = .error e ∧ e.isException = true) ∨
      ∃ z net2, backward (ofFn es g) net1 = (.ok z, net2) ∧ Planned net2 ps L ∧ NetReady net2) := by
  obtain ⟨ds, f, rfl, hf, hdeep⟩ := hx
  obtain ⟨h1, hL, opt, ho, hr⟩ := hn
  obtain ⟨ls', r', k1, k2, k3, k4, k5⟩ := follows_run E h1 net.rng f hf
  unfold predict at h
  rcases hfl : forwardLayers E net.layers (ofFn ds f) net.rng with ⟨res', st⟩
  rw [hfl] at k1 k2 h
  simp only at k1 k2
  subst k1
  cases h
  refine ⟨⟨k3, hL, opt, ho, remembersFrom_params k4 hr⟩, ?_⟩
  rcases hrun : run ps ds with es | _ | _
  · rw [hrun] at k2
    obtain ⟨p, rfl⟩ := k2
    refine Or.inr ⟨es, p, rfl, fits_run hf hrun, fun g => ?_⟩
    unfold backward
    rcases k5 deep es es g ht hdeep hrun (Or.inl rfl) with ⟨e, b1, b2⟩ | ⟨hs, z, ls'', b1, -, b3, b4, b5⟩
    · refine Or.inl ⟨e, ?_, b2⟩
      exact b1
    · refine Or.inr ⟨ofFn hs z, { net with layers := ls'', rng := r' }, ?_, ⟨b3, hL, opt, ho, remembersFrom_params b5 hr⟩,
        b4, opt, ho, remembersFrom_params b5 hr⟩
      simp only [b1]
  · rw [hrun] at k2
    obtain ⟨e, rfl, he⟩ := k2
    exact Or.inl ⟨e, rfl, Or.inl he⟩
  · rw [hrun] at k2
    cases k2
    exact Or.inl ⟨.abort, rfl, Or.inr ⟨rfl, run_aborts hrun⟩⟩

theorem planned_update {net : Net ρ ℝ} {ps : List Plan} {L : Loss ℝ} (h : Planned net ps L) (hr : NetReady net) :
    (updateWeights net).1 = .ok () ∧ Planned (updateWeights net).2 ps L := by
  obtain ⟨h1, h2, -⟩ := h
  obtain ⟨u1, -, opt', o1, o2⟩ := C56_succeeds net hr
  obtain ⟨c1, c2, -⟩ := C56_changes net
  exact ⟨u1, updated_all_follow c1 h1, c2.trans h2, opt', o1, o2⟩

theorem planned_step {E : Engine ρ ℝ} {net net' : Net ρ ℝ} {ps : List Plan} {L : Loss ℝ} {deep : Bool} {x y : Tensor ℝ} {v : ℝ}
    (hn : Planned net ps L) (ht : TrainablePlan deep ps) (hx : Sample ps deep x) (hy : Target L y)
    (h : StepOk E x y net net' v) : Planned net' ps L := by
  obtain ⟨pred, net1, L', g, g', net2, h1, h2, h3, h4, h5, h6⟩ := h
  obtain ⟨p1, p2⟩ := predict_planned hn ht hx h1
  obtain rfl : L' = L := by
    have := p1.2.1
    rw [h2] at this
    exact Option.some.inj this
  obtain ⟨ts, t, rfl, hd, hL⟩ := hy
  rcases p2 with ⟨e, he, -⟩ | ⟨es, p, hp, hes, hb⟩
  · cases he
  · cases hp
    rcases loss_answer hes hd hL p t with ⟨e, c1, -⟩ | ⟨v, g1, -, c2⟩
    · rw [h3] at c1
      cases c1
    · rw [h4] at c2
      cases c2
      rcases hb g1 with ⟨e, b1, -⟩ | ⟨z, net3, b1, b2, b3⟩
      · rw [h5] at b1
        cases b1
      · rw [h5] at b1
        cases b1
        have := (planned_update b2 b3).2
        rw [h6] at this
        exact this

theorem planned_fails {E : Engine ρ ℝ} {net net' : Net ρ ℝ} {ps : List Plan} {L : Loss ℝ} {deep : Bool} {x y : Tensor ℝ} {e : Err}
    (hn : Planned net ps L) (ht : TrainablePlan deep ps) (hx : Sample ps deep x) (hy : Target L y)
    (h : StepFails E x (some y) net e net') :
    e.isException = true ∨ e = .abort ∧ ∃ ic oc kh kw, Plan.conv ic oc kh kw ∈ ps := by
  obtain ⟨ts, t, rfl, hd, hL⟩ := hy
  have key : ∀ {pred net1 L'}, predict E x net = (.ok pred, net1) → net1.loss = some L' →
      L' = L ∧ ∃ es p, pred = ofFn es p ∧ Dims es ∧ ∀ g,
      (∃ e, (backward (ofFn es g) net1).1 = .error e ∧ e.isException = true) ∨
      ∃ z net2, backward (ofFn es g) net1 = (.ok z, net2) ∧ Planned net2 ps L ∧ NetReady net2 := by
    intro pred net1 L' h1 h2
    obtain ⟨p1, p2⟩ := predict_planned hn ht hx h1
    refine ⟨?_, ?_⟩
    · have := p1.2.1
      rw [h2] at this
      exact Option.some.inj this
    · rcases p2 with ⟨e, he, -⟩ | ⟨es, p, hp, hes, hb⟩
      · cases he
      · cases hp
        exact ⟨es, p, rfl, hes, hb⟩
  cases h with
  | forward h1 =>
    obtain ⟨-, p2⟩ := predict_planned hn ht hx h1
    rcases p2 with ⟨e', he, h⟩ | ⟨es, p, hp, -⟩
    · cases he
      exact h
    · cases hp
  | uncompiled h1 hl =>
    have := (predict_planned hn ht hx h1).1.2.1
    rw [hl] at this
    cases this
  | loss h1 hl hc =>
    obtain ⟨rfl, es, p, rfl, hes, hb⟩ := key h1 hl
    rcases loss_answer hes hd hL p t with ⟨e', c1, c2⟩ | ⟨v, g1, c1, -⟩
    · rw [hc] at c1
      cases c1
      exact Or.inl c2
    · rw [hc] at c1
      cases c1
  | gradient h1 hl hc hg =>
    obtain ⟨rfl, es, p, rfl, hes, hb⟩ := key h1 hl
    rcases loss_answer hes hd hL p t with ⟨e', c1, c2⟩ | ⟨v, g1, c1, c2⟩
    · rw [hc] at c1
      cases c1
    · rw [hg] at c2
      cases c2
  | backward h1 hl hc hg hbk =>
    obtain ⟨rfl, es, p, rfl, hes, hb⟩ := key h1 hl
    rcases loss_answer hes hd hL p t with ⟨e', c1, c2⟩ | ⟨v, g1, c1, c2⟩
    · rw [hc] at c1
      cases c1
    · rw [hg] at c2
      cases c2
      rcases hb g1 with ⟨e', b1, b2⟩ | ⟨z, net3, b1, -⟩
      · rw [hbk] at b1
        cases b1
        exact Or.inl b2
      · rw [hbk] at b1
        cases b1
  | update h1 hl hc hg hbk hu =>
    obtain ⟨rfl, es, p, rfl, hes, hb⟩ := key h1 hl
    rcases loss_answer hes hd hL p t with ⟨e', c1, c2⟩ | ⟨v, g1, c1, c2⟩
    · rw [hc] at c1
      cases c1
    · rw [hg] at c2
      cases c2
      rcases hb g1 with ⟨e', b1, b2⟩ | ⟨z, net3, b1, b2, b3⟩
      · rw [hbk] at b1
        cases b1
      · rw [hbk] at b1
        cases b1
        have := (planned_update b2 b3).1
        rw [hu] at this
        cases this

theorem planned_steps {E : Engine ρ ℝ} {ps : List Plan} {L : Loss ℝ} {deep : Bool} (ht : TrainablePlan deep ps)
    {qs : List (Tensor ℝ × Tensor ℝ)} {net net' : Net ρ ℝ} {vs : List ℝ} (h : Steps E qs net net' vs) :
    (∀ q ∈ qs, Sample ps deep q.1 ∧ Target L q.2) → Planned net ps L → Planned net' ps L := by
  induction h with
  | nil => exact fun _ h => h
  | @cons x y qs n1 n2 n3 v vs h _ ih =>
    intro hq hn
    obtain ⟨h1, h2⟩ := hq (x, y) (by simp)
    exact ih (fun q hm => hq q (by simp [hm])) (planned_step hn ht h1 h2 h)

theorem planned_epochs {E : Engine ρ ℝ} {ps : List Plan} {L : Loss ℝ} {deep : Bool} (ht : TrainablePlan deep ps)
    {qs : List (Tensor ℝ × Tensor ℝ)} (hq : ∀ q ∈ qs, Sample ps deep q.1 ∧ Target L q.2) {n : Nat} {net net' : Net ρ ℝ}
    {rs : List (Tensor ℝ)} (h : Epochs E qs n net net' rs) : Planned net ps L → Planned net' ps L := by
  induction h with
  | zero => exact fun h => h
  | succ h _ ih => exact fun hn => ih (planned_steps ht h hq hn)

/-- **C99.** `train` on inputs and targets of any dimensions, matching or not, ends normally or with an exception; a model with
convolutions may also stop the program at an assertion.  It never runs into undefined behaviour.
Missing for the full property: convolutions abort instead of throwing (`C99_image_refuted`), one-dimensional targets with the cross
entropy (`C99_vector_classes_refuted`), matrices given to a flatten layer (`C99_flatten_refuted`) and inputs without a target
(`C99_no_target_refuted`) are undefined behaviour, and so is training with batch normalisation (`C74_refuted`). -/
theorem C99_train_partial (E : Engine ρ ℝ) (net : Net ρ ℝ) {ps : List Plan} {L : Loss ℝ} (hn : Planned net ps L) {deep : Bool}
    (ht : TrainablePlan deep ps) (inputs targets : List (Tensor ℝ)) (epochs : Int) (hx : ∀ x ∈ inputs, Sample ps deep x)
    (hy : ∀ y ∈ targets, Target L y) (hlen : inputs.length ≤ targets.length) :
    (trainCall E inputs targets epochs net).1 = .ok () ∨
    ∃ e, (trainCall E inputs targets epochs net).1 = .error e ∧
      (e.isException = true ∨ e = .abort ∧ ∃ ic oc kh kw, Plan.conv ic oc kh kw ∈ ps) := by
  rcases hc : trainCall E inputs targets epochs net with ⟨e | u, net', rs⟩
  · right
    refine ⟨e, rfl, ?_⟩
    obtain ⟨m, net1, net2, vs, -, h1, h2⟩ := C55_train_fails E inputs targets epochs net net' rs e hc
    have hq : ∀ q ∈ inputs.zip targets, Sample ps deep q.1 ∧ Target L q.2 := fun q hq =>
      ⟨hx _ (List.of_mem_zip hq).1, hy _ (List.of_mem_zip hq).2⟩
    have hn1 := planned_epochs ht hq h1 hn
    rcases h2 with ⟨k, x, hk, h3, h4⟩ | ⟨-, -, rfl, -⟩
    · have hn2 := planned_steps ht h3 (fun q hm => ⟨hx _ (List.mem_of_mem_take (List.of_mem_zip hm).1),
        hy _ (List.of_mem_zip hm).2⟩) hn1
      obtain ⟨hk', -⟩ := List.getElem?_eq_some_iff.1 hk
      have hkt : k < targets.length := by omega
      rw [List.getElem?_eq_getElem hkt] at h4
      exact planned_fails hn2 ht (hx _ (List.mem_of_getElem? hk)) (hy _ (List.getElem_mem hkt)) h4
    · exact Or.inl rfl
  · exact Or.inl rfl

/-! ### Where the code does not throw -/

theorem stepFails_det {E : Engine ρ ℝ} {x : Tensor ℝ} {y : Option (Tensor ℝ)} {net n1 n2 : Net ρ ℝ} {e1 e2 : Err}
    (h1 : StepFails E x y net e1 n1) (h2 : StepFails E x y net e2 n2) : e1 = e2 := by
  cases h1 <;> cases h2 <;> simp_all

theorem first_fails {E : Engine ρ ℝ} {x : Tensor ℝ} {inputs targets : List (Tensor ℝ)} {net net1 : Net ρ ℝ} {e : Err} {epochs : Int}
    (h : StepFails E x targets[0]? net e net1) (he : 0 < epochs) :
    (trainCall E (x :: inputs) targets epochs net).1 = .error e := by
  obtain ⟨n, hn⟩ : ∃ n, epochs.toNat = n + 1 := ⟨epochs.toNat - 1, by omega⟩
  have hs : ∃ s1, trainSamples E targets 0 (x :: inputs) ⟨net, ofFn [1] fun _ => 0, []⟩ = (.error e, s1) := by
    show ∃ s1, (trainSample E x targets 0 >>= fun _ => trainSamples E targets (0 + 1) inputs) _ = _
    rcases sample_cases E x targets 0 net 0 [] with ⟨y, n1, v1, hy, hst, -⟩ | ⟨e', n1, t1, hst, h1⟩
    · rw [hy] at h
      exact (stepOk_not_fails hst h).elim
    · obtain rfl := stepFails_det h hst
      exact ⟨_, by rw [Mut.bind_apply, h1]⟩
  obtain ⟨s1, hs⟩ := hs
  have he' := epoch_fails E (x :: inputs) targets ⟨net, ofFn [1] fun _ => 0, []⟩ hs
  unfold trainCall train
  simp only [hn]
  rw [forN_const_succ, Mut.bind_apply, he']

/-- A model that begins with a convolution stops the program on data that are not four-dimensional (a single image, say), instead of
throwing. -/
theorem C99_image_refuted (E : Engine ρ ℝ) (net : Net ρ ℝ) {ic oc kh kw : Nat} {ps : List Plan}
    (h : List.Forall₂ Follows net.layers (.conv ic oc kh kw :: ps)) {ds : List Nat} (hd : Dims ds) (hr : ds.length ≠ 4)
    (x : List Nat → ℝ) : (predict E (ofFn ds x) net).1 = .error .abort := by
  have ha : (Plan.conv ic oc kh kw).answer ds = .aborts := by
    unfold Plan.answer
    split <;> simp_all
  have hf : HasRoom (.conv ic oc kh kw :: ps) ds := by
    refine ⟨hd, ?_, fun es he => ?_⟩
    · unfold Plan.room
      split <;> simp_all
    · rw [ha] at he
      cases he
  have := (C99_predict E net h hf x).1
  rw [run, ha] at this
  exact this

/-- The cross entropy of one-dimensional predictions and targets is undefined behaviour: training any model that answers a sample with
a vector of `n` numbers, on a one-dimensional target of `n` class indicators. -/
theorem C99_vector_classes_refuted (E : Engine ρ ℝ) (net : Net ρ ℝ) {ps : List Plan} {eps : ℝ}
    (hn : Planned net ps (.crossEntropy eps)) {ds : List Nat} {n : Nat} (hf : HasRoom ps ds) (hr : run ps ds = .accepts [n])
    (x y : List Nat → ℝ) (inputs targets : List (Tensor ℝ)) (epochs : Int) (he : 0 < epochs) :
    (trainCall E (ofFn ds x :: inputs) (ofFn [n] y :: targets) epochs net).1 = .error .ub := by
  obtain ⟨h1, h2, -⟩ := hn
  have hp := (C99_predict E net h1 hf x).1
  rw [hr] at hp
  obtain ⟨p, hp⟩ := hp
  rcases hpr : predict E (ofFn ds x) net with ⟨res, net1⟩
  rw [hpr] at hp
  simp only at hp
  subst hp
  have hl : net1.loss = some (.crossEntropy eps) := by
    have := congrArg (fun q => q.2.loss) hpr
    exact this.symm.trans h2
  refine first_fails (net1 := net1) (.loss hpr hl ?_) he
  simp only [Loss.compute, ofFn_shape, beq_shapeOf, decide_true]
  rfl

/-- A model that begins with a flatten layer which has not seen images, trained on matrices: undefined behaviour. -/
theorem C99_flatten_refuted (E : Engine ρ ℝ) (r : ρ) (mode : Bool) (opt : Optimizer (Nat × Bool) ℝ) {a b : Nat} (hd : Dims [a, b])
    (x y : List Nat → ℝ) (inputs targets : List (Tensor ℝ)) (epochs : Int) (he : 0 < epochs) :
    (trainCall E (ofFn [a, b] x :: inputs) (ofFn [a, b] y :: targets) epochs
      (Net.compile .mse opt { layers := [⟨.flatten {}, mode⟩], rng := r })).1 = .error .ub := by
  have hfw : Flatten.forward (ofFn [a, b] x) {} = (.ok (ofFn [a, b] x), {}) := by
    unfold Flatten.forward
    rw [if_neg (by simp), if_pos (by simp)]
    rfl
  have hp : predict E (ofFn [a, b] x) (Net.compile .mse opt { layers := [⟨.flatten {}, mode⟩], rng := r }) =
      (.ok (ofFn [a, b] x), Net.compile .mse opt { layers := [⟨.flatten {}, mode⟩], rng := r }) := by
    unfold predict
    simp only [Net.compile, forwardLayers, Layer.forward, Layer.onKind, hfw]
  exact first_fails (.backward hp rfl (C29_compute hd x y) (mse_gradient_ofFn hd x y) rfl) he

/-- More inputs than targets: undefined behaviour at the first input without a target (here: no targets at all). -/
theorem C99_no_target_refuted (E : Engine ρ ℝ) (net : Net ρ ℝ) {ps : List Plan} {L : Loss ℝ} (hn : Planned net ps L)
    {ds es : List Nat} (hf : HasRoom ps ds) (hr : run ps ds = .accepts es) (x : List Nat → ℝ) (inputs : List (Tensor ℝ)) (epochs : Int)
    (he : 0 < epochs) : (trainCall E (ofFn ds x :: inputs) [] epochs net).1 = .error .ub := by
  obtain ⟨h1, h2, -⟩ := hn
  have hp := (C99_predict E net h1 hf x).1
  rw [hr] at hp
  obtain ⟨p, hp⟩ := hp
  rcases hpr : predict E (ofFn ds x) net with ⟨res, net1⟩
  rw [hpr] at hp
  simp only at hp
  subst hp
  have hl : net1.loss = some L := by
    have := congrArg (fun q => q.2.loss) hpr
    exact this.symm.trans h2
  exact first_fails (net1 := net1) (.noTarget hpr hl) he

/-! ### Sequences -/

/-- A fully connected layer accepts three-dimensional data of `m` rows in each of `b` matrices in `forward` (see the table), but its
`backward` then throws, unless all dimensions are 1: models can answer sequences but cannot be trained on them. -/
theorem C99_sequences {b m i o : Nat} (hx : Dims [b, m, i]) (hw : Dims [i, o]) (ho : Dims [b, m, o])
    (hroom : max m b * (b * o) < 2 ^ 31) {w bias : List Nat → ℝ} (l : FC ℝ) (hlw : l.weights = ofFn [i, o] w)
    (hlb : l.biases = ofFn [1, o] bias) (x : List Nat → ℝ) (h1 : ¬ (b = 1 ∧ m = 1 ∧ i = 1)) :
    ∃ y l', FC.forward (ofFn [b, m, i] x) l = (.ok (ofFn [b, m, o] y), l') ∧
      ∀ g, ∃ e, (FC.backward (ofFn [b, m, o] g) l').1 = .error e ∧ e.isException = true := by
  obtain ⟨y, hy⟩ := fc_forward_3d hx hw ho w bias x
  refine ⟨y, { l with input := some (ofFn [b, m, i] x) }, ?_, fun g => ?_⟩
  · refine Prod.ext ?_ rfl
    show FC.affine l.weights l.biases _ = _
    rw [hlw, hlb, hy]
  · rcases fc_backward_3d (g := g) (l := { l with input := some (ofFn [b, m, i] x) }) hx hw ho hroom hlw hlb rfl with
      ⟨-, h⟩ | ⟨q1, q2, q3, -⟩
    · exact h
    · exact (h1 ⟨q1, q2, q3⟩).elim

/-! ### Concrete models -/

section
noncomputable section

/-- Convolution 1 → 2 channels, 3x3 kernel; ReLU; 2x2 pooling; dropout; flatten; dense 18 → 10; softmax. -/
def exPlans : List Plan :=
  [.conv 1 2 3 3, .elementwise, .pool 2 2, .dropout true, .flatten, .dense 18 10, .softmax]

theorem exConvNet_follows : List.Forall₂ Follows exConvNet.layers exPlans := by
  have d : ∀ {ds : List Nat}, ds ≠ [] → (∀ a ∈ ds, 0 < a) → ds.prod < 2 ^ 31 → Dims ds := fun a b c => ⟨a, b, c⟩
  refine .cons (.conv (d (by simp) (by simp) (by simp)) rfl rfl rfl rfl rfl rfl) ?_
  refine .cons (.elementwise (by intro h; cases h)) ?_
  refine .cons (.pool (p := 2) (s := 2) (by omega) (by omega)) ?_
  refine .cons .dropout (.cons .flatten ?_)
  exact .cons (.dense (d (by simp) (by simp) (by simp)) rfl rfl) (.cons (.softmax rfl) .nil)

/-- The table for this model: a batch of 8x8 images is accepted, and so is one of 9x9 images (the pooling drops the odd row, so that the
dense layer gets 18 features again); 12x12 images are rejected by the dense layer, 2x2 images are smaller than the kernel; a single
image and images with three channels stop the program. -/
example : run exPlans [5, 1, 8, 8] = .accepts [5, 10] ∧ run exPlans [5, 1, 9, 9] = .accepts [5, 10] ∧
    run exPlans [5, 1, 12, 12] = .throws ∧ run exPlans [5, 1, 2, 2] = .throws ∧ run exPlans [8, 8] = .aborts ∧
    run exPlans [5, 3, 8, 8] = .aborts := by decide

theorem exConvNet_planned (L : Loss ℝ) (o : AdamOptions ℝ) : Planned (exConvNet.compile L (.newAdam o)) exPlans L := by
  refine ⟨exConvNet_follows, rfl, _, rfl, ?_⟩
  intro j l _ p _
  exact ⟨(remembers_new _ _ ⟨0, 0, 0, 0, false⟩ ⟨0, 0, 0, 0, false, 0⟩ o).2.2,
    (remembers_new _ _ ⟨0, 0, 0, 0, false⟩ ⟨0, 0, 0, 0, false, 0⟩ o).2.2⟩

theorem exHasRoom {ds : List Nat} (h : ds = [5, 1, 8, 8] ∨ ds = [5, 1, 12, 12]) : HasRoom exPlans ds := by
  have d : ∀ {ds : List Nat}, ds ≠ [] → (∀ a ∈ ds, 0 < a) → ds.prod < 2 ^ 31 → Dims ds := fun a b c => ⟨a, b, c⟩
  rcases h with rfl | rfl
  · refine ⟨d (by simp) (by simp) (by simp), by norm_num [Plan.room], fun es he => ?_⟩
    obtain rfl : es = [5, 2, 6, 6] := by simpa [Plan.answer] using he.symm
    refine ⟨d (by simp) (by simp) (by simp), trivial, fun es he => ?_⟩
    cases he
    refine ⟨d (by simp) (by simp) (by simp), trivial, fun es he => ?_⟩
    obtain rfl : es = [5, 2, 3, 3] := by simpa [Plan.answer] using he.symm
    refine ⟨d (by simp) (by simp) (by simp), trivial, fun es he => ?_⟩
    cases he
    refine ⟨d (by simp) (by simp) (by simp), trivial, fun es he => ?_⟩
    obtain rfl : es = [5, 18] := by simpa [Plan.answer] using he.symm
    refine ⟨d (by simp) (by simp) (by simp), trivial, fun es he => ?_⟩
    obtain rfl : es = [5, 10] := by simpa [Plan.answer] using he.symm
    refine ⟨d (by simp) (by simp) (by simp), trivial, fun es he => ?_⟩
    obtain rfl : es = [5, 10] := by simpa [Plan.answer] using he.symm
    exact d (by simp) (by simp) (by simp)
  · refine ⟨d (by simp) (by simp) (by simp), by norm_num [Plan.room], fun es he => ?_⟩
    obtain rfl : es = [5, 2, 10, 10] := by simpa [Plan.answer] using he.symm
    refine ⟨d (by simp) (by simp) (by simp), trivial, fun es he => ?_⟩
    cases he
    refine ⟨d (by simp) (by simp) (by simp), trivial, fun es he => ?_⟩
    obtain rfl : es = [5, 2, 5, 5] := by simpa [Plan.answer] using he.symm
    refine ⟨d (by simp) (by simp) (by simp), trivial, fun es he => ?_⟩
    cases he
    refine ⟨d (by simp) (by simp) (by simp), trivial, fun es he => ?_⟩
    obtain rfl : es = [5, 50] := by simpa [Plan.answer] using he.symm
    refine ⟨d (by simp) (by simp) (by simp), trivial, fun es he => ?_⟩
    simp [Plan.answer] at he

/-- Training it on images of two different sizes, one of them wrong, with a target of the wrong shape: the hypotheses of
`C99_train_partial` are met. -/
example (E : Engine Unit ℝ) (o : AdamOptions ℝ) (x1 x2 y1 y2 : List Nat → ℝ) :
    let c := trainCall E [ofFn [5, 1, 8, 8] x1, ofFn [5, 1, 12, 12] x2] [ofFn [5, 10] y1, ofFn [3, 4] y2] 7
      (exConvNet.compile (.crossEntropy (1 / 100)) (.newAdam o))
    c.1 = .ok () ∨ ∃ e, c.1 = .error e ∧ (e.isException = true ∨ e = .abort ∧ ∃ ic oc kh kw, Plan.conv ic oc kh kw ∈ exPlans) := by
  refine C99_train_partial E _ (exConvNet_planned _ o) (deep := false) (by simp [exPlans, TrainablePlan]) _ _ 7 ?_ ?_ (by simp)
  · intro x hx
    simp only [List.mem_cons, List.not_mem_nil, or_false] at hx
    rcases hx with rfl | rfl
    · exact ⟨_, _, rfl, exHasRoom (Or.inl rfl), nofun⟩
    · exact ⟨_, _, rfl, exHasRoom (Or.inr rfl), nofun⟩
  · intro y hy
    simp only [List.mem_cons, List.not_mem_nil, or_false] at hy
    rcases hy with rfl | rfl
    · exact ⟨_, _, rfl, ⟨by simp, by simp, by simp⟩, Or.inr (by simp)⟩
    · exact ⟨_, _, rfl, ⟨by simp, by simp, by simp⟩, Or.inr (by simp)⟩

/-- The wrong images are rejected with an exception, a single image stops the program. -/
example (E : Engine Unit ℝ) (x : List Nat → ℝ) :
    (∃ e, (predict E (ofFn [5, 1, 12, 12] x) exConvNet).1 = .error e ∧ e.isException = true) ∧
    (predict E (ofFn [8, 8] x) exConvNet).1 = .error .abort := by
  refine ⟨?_, C99_image_refuted E exConvNet exConvNet_follows ⟨by simp, by simp, by simp⟩ (by simp) x⟩
  have := (C99_predict E exConvNet exConvNet_follows (exHasRoom (Or.inr rfl)) x).1
  rw [show run exPlans [5, 1, 12, 12] = .throws from by decide] at this
  exact this

/-- A classifier of single samples with four features and three classes. -/
def exVector : Net Unit ℝ where
  layers := [⟨.fc { weights := ofFn [4, 3] (fun _ => 1), biases := ofFn [1, 3] (fun _ => 0) }, true⟩]
  rng := ()

example (E : Engine Unit ℝ) (o : AdamOptions ℝ) (x y : List Nat → ℝ) :
    (trainCall E [ofFn [4] x] [ofFn [3] y] 1 (exVector.compile (.crossEntropy (1 / 100)) (.newAdam o))).1 = .error .ub ∧
    (trainCall E [ofFn [4] x] [] 1 (exVector.compile (.crossEntropy (1 / 100)) (.newAdam o))).1 = .error .ub := by
  have d : ∀ {ds : List Nat}, ds ≠ [] → (∀ a ∈ ds, 0 < a) → ds.prod < 2 ^ 31 → Dims ds := fun a b c => ⟨a, b, c⟩
  have hp : Planned (exVector.compile (.crossEntropy (1 / 100)) (.newAdam o)) [.dense 4 3] (.crossEntropy (1 / 100)) := by
    refine ⟨.cons (.dense (d (by simp) (by simp) (by simp)) rfl rfl) .nil, rfl, _, rfl, ?_⟩
    intro j l _ p _
    exact ⟨(remembers_new _ _ ⟨0, 0, 0, 0, false⟩ ⟨0, 0, 0, 0, false, 0⟩ o).2.2,
      (remembers_new _ _ ⟨0, 0, 0, 0, false⟩ ⟨0, 0, 0, 0, false, 0⟩ o).2.2⟩
  have hf : HasRoom [.dense 4 3] [4] := by
    refine ⟨d (by simp) (by simp) (by simp), trivial, fun es he => ?_⟩
    obtain rfl : es = [3] := by simpa [Plan.answer] using he.symm
    exact d (by simp) (by simp) (by simp)
  exact ⟨C99_vector_classes_refuted E _ hp hf rfl x y [] [] 1 (by decide), C99_no_target_refuted E _ hp hf rfl x [] 1 (by decide)⟩

/-- Two sequences of five vectors of four features. -/
example : Dims [2, 5, 4] ∧ Dims [4, 3] ∧ Dims [2, 5, 3] ∧ max 5 2 * (2 * 3) < 2 ^ 31 ∧ ¬ (2 = 1 ∧ 5 = 1 ∧ 4 = 1) :=
  ⟨⟨by simp, by simp, by simp⟩, ⟨by simp, by simp, by simp⟩, ⟨by simp, by simp, by simp⟩, by norm_num, by simp⟩

end
end

end SmartDNN
