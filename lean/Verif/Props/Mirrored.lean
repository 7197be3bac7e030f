import Verif.Proofs.Mirrored

/-!
# Signs of features, units and targets, and where the targets have their zero (C119)
-/

namespace SmartDNN
open Net Spec

variable {ρ : Type}

/-- **C119, predictions.**  Models that correspond by signs and a shift of the outputs give corresponding predictions. -/
theorem C119_predict {Rs : List Mirroring} {σ υ d : Nat → ℝ} {ds es : List Nat} (E : Engine ρ ℝ) (net net' : Net ρ ℝ) (h : WellShaped net ds es)
    (ht : Mirrors Rs σ υ d net net') (x : List Nat → ℝ) :
    ∃ y k k', predict E (ofFn ds x) net = (.ok (ofFn es y), k) ∧
      predict E (ofFn ds (measured σ nought x)) net' = (.ok (ofFn es (measured υ d y)), k') ∧ Mirrors Rs σ υ d k k' ∧ WellShaped k ds es := by
  obtain ⟨a1, a2, a3, al, opt, opt', a4, a5, a6, a7⟩ := ht
  obtain ⟨p, ks, ks', r', h1, h2, h3, h4, h5, h6⟩ := mirrored_chain E a1 h.1 net.rng x
  have e : predict E (ofFn ds x) net = (.ok (ofFn es p), { net with layers := ks, rng := r' }) := by
    unfold predict
    rw [h1]
  obtain ⟨y, k, p1, -, p3⟩ := C67_predict E net h (ofFn ds x) ⟨x, rfl⟩
  obtain rfl : _ = k := congrArg Prod.snd (e.symm.trans p1)
  refine ⟨p, { net with layers := ks, rng := r' }, { net' with layers := ks', rng := r' }, e, ?_, ⟨h4, a2, rfl, al, opt, opt', a4, a5, a6, a7⟩, p3⟩
  unfold predict
  rw [a3, h2]

/-- **C119, training.**  Training corresponding models on corresponding data succeeds for both, prints the same losses, and the trained models correspond again,
in their parameters and in what their optimizers remember: so they do after any number of calls. -/
theorem C119_train {Rs : List Mirroring} {σ υ d : Nat → ℝ} {ds es : List Nat} (E : Engine ρ ℝ) (net net' : Net ρ ℝ) (h : WellShaped net ds es)
    (ht : Mirrors Rs σ υ d net net') (ps : List ((List Nat → ℝ) × (List Nat → ℝ))) (hne : ps ≠ []) (epochs : Int) :
    ∃ rs k k', trainCall E (ps.map fun p => ofFn ds p.1) (ps.map fun p => ofFn es p.2) epochs net = (.ok (), k, rs) ∧
      trainCall E (ps.map fun p => ofFn ds (measured σ nought p.1)) (ps.map fun p => ofFn es (measured υ d p.2)) epochs net' = (.ok (), k', rs) ∧
      rs.length = epochs.toNat ∧ Mirrors Rs σ υ d k k' ∧ WellShaped k ds es := by
  have hz : ∀ (f g : (List Nat → ℝ) × (List Nat → ℝ) → Tensor ℝ), (ps.map f).zip (ps.map g) = ps.map fun p => (f p, g p) := fun f g => List.zip_map' ..
  have hn : ∀ f : (List Nat → ℝ) × (List Nat → ℝ) → Tensor ℝ, ((ps.map f).length : ℝ) ≠ 0 := fun f => by
    rw [Ne, Nat.cast_eq_zero, List.length_eq_zero_iff, List.map_eq_nil_iff]
    exact hne
  have hf : List.Forall₂ (Remeasured σ υ d ds es) (ps.map fun p => (ofFn ds p.1, ofFn es p.2))
      (ps.map fun p => (ofFn ds (measured σ nought p.1), ofFn es (measured υ d p.2))) := by
    rw [List.forall₂_map_left_iff, List.forall₂_map_right_iff]
    exact List.forall₂_same.2 fun p _ => ⟨p.1, p.2, rfl, rfl⟩
  obtain ⟨rs, k, k', e1, e2, e3, e4, e5⟩ := mirrored_epochs (Rs := Rs) E hf epochs.toNat net net' h ht
  rw [← hz] at e1 e2
  exact ⟨rs, k, k', (C55_train E _ _ epochs net k rs (by simp) (hn _)).2 e1, (C55_train E _ _ epochs net' k' rs (by simp) (hn _)).2 e2, e3, e4, e5⟩

/-! ### Features and targets -/

theorem mirroredAll_pre {Rs : List Mirroring} {υ d : Nat → ℝ} {ms ms' : List (Layer ℝ)} (h : MirroredAll Rs plus υ d ms ms') :
    ∀ pre : List (Layer ℝ), MirroredAll (List.replicate pre.length .keep ++ Rs) plus υ d (pre ++ ms) (pre ++ ms') := by
  intro pre
  induction pre with
  | nil => exact h
  | cons l pre ih => exact .cons (.same l) ih

theorem mirroredAll_same : ∀ (ls : List (Layer ℝ)), ls ≠ [] → MirroredAll (List.replicate ls.length .keep) plus plus nought ls ls := by
  intro ls
  induction ls with
  | nil => intro h; exact absurd rfl h
  | cons l ls ih =>
    intro _
    cases ls with
    | nil => exact .last (.same l)
    | cons a ls => exact .cons (.same l) (ih (by simp))

theorem fresh_mirror {fr : Nat × Bool → MFrame} {opt : Optimizer (Nat × Bool) ℝ} (h : FreshOptimizer opt) : OptMirror fr opt opt := by
  have e : ∀ f : Nat × Bool → MFrame, MapMirror f (fun _ => none) (fun _ => none) := fun f k => Or.inl ⟨rfl, rfl⟩
  rcases h with ⟨o, rfl⟩ | ⟨o, rfl⟩ | ⟨o, rfl⟩
  · exact ⟨rfl, e _⟩
  · exact ⟨rfl, e _, e _, e _⟩
  · exact ⟨rfl, rfl, rfl, e _, e _⟩

theorem fresh_of_unregularised {opt : Optimizer (Nat × Bool) ℝ} (h : Unregularised opt) : FreshOptimizer opt ∧ NoDecay opt := by
  cases h with
  | sgd o h => exact ⟨Or.inl ⟨o, rfl⟩, h⟩
  | rmsprop o h => exact ⟨Or.inr (Or.inl ⟨o, rfl⟩), h⟩
  | adam o h1 h2 => exact ⟨Or.inr (Or.inr ⟨o, rfl⟩), h1, h2⟩

/-- **C119, targets.**  A model with any layers and a dense layer as the last, freshly compiled with the squared error and an optimizer without weight decay, is
trained; a second one, which has the opposite weights and bias for outputs `j` with `υ j = -1`, and `d j` added to its biases, is trained on the targets `υ j t + d j`.
Both print the same losses, and whatever they are asked later, where the first answers `y` the second answers `υ j y + d j`: which sign the targets have and where
their zero is makes no difference. -/
theorem C119_targets {ds : List Nat} {b n k : Nat} (E : Engine ρ ℝ) (net : Net ρ ℝ) (pre : List (Layer ℝ)) (l : FC ℝ) (m : Bool)
    (hl : net.layers = pre ++ [⟨.fc l, m⟩]) (w bias : List Nat → ℝ) (hw : l.weights = ofFn [n, k] w) (hb : l.biases = ofFn [1, k] bias)
    (hwell : WellShaped net ds [b, k]) (hm : net.loss = some .mse) (ho : ∀ opt, net.optimizer = some opt → Unregularised opt) (υ d : Nat → ℝ) (hυ : Signs υ)
    (l' : FC ℝ) (hw' : l'.weights = ofFn [n, k] fun i => υ (i.getD 1 0) * w i) (hb' : l'.biases = ofFn [1, k] fun i => υ (i.getD 1 0) * bias i + d (i.getD 1 0))
    (ps : List ((List Nat → ℝ) × (List Nat → ℝ))) (hne : ps ≠ []) (epochs : Int) :
    ∃ rs k₁ k₂, trainCall E (ps.map fun p => ofFn ds p.1) (ps.map fun p => ofFn [b, k] p.2) epochs net = (.ok (), k₁, rs) ∧
      trainCall E (ps.map fun p => ofFn ds p.1) (ps.map fun p => ofFn [b, k] fun i => υ (i.getD 1 0) * p.2 i + d (i.getD 1 0)) epochs
        { net with layers := pre ++ [⟨.fc l', m⟩] } = (.ok (), k₂, rs) ∧ rs.length = epochs.toNat ∧
      ∀ x, ∃ y, (predict E (ofFn ds x) k₁).1 = .ok (ofFn [b, k] y) ∧
        (predict E (ofFn ds x) k₂).1 = .ok (ofFn [b, k] fun i => υ (i.getD 1 0) * y i + d (i.getD 1 0)) := by
  have hme : ∀ f : List Nat → ℝ, ofFn [b, k] (measured υ d f) = ofFn [b, k] fun i => υ (i.getD 1 0) * f i + d (i.getD 1 0) := fun f =>
    ofFn_congr fun i hi => by
      obtain ⟨a, c, rfl, -, -⟩ := valid2_iff.1 hi
      rfl
  obtain ⟨opt, hopt, -⟩ := hwell.2.2
  obtain ⟨f1, f2⟩ := fresh_of_unregularised (ho opt hopt)
  obtain ⟨rs, k₁, k₂, h1, h2, h3, h4, h5⟩ := C119_train E net { net with layers := pre ++ [⟨.fc l', m⟩] } hwell
    (Rs := List.replicate pre.length .keep ++ [.units n k plus υ d]) (σ := plus) (υ := υ) (d := d)
    ⟨by rw [hl]; exact mirroredAll_pre (.last (.dense (fun _ => Or.inl rfl) hυ hw hb (by rw [hw']; simp [plus]) hb')) pre, rfl, rfl, Or.inl hm, opt, opt, hopt, hopt,
      fresh_mirror f1, Or.inl f2⟩ ps hne epochs
  simp only [measured_plus, hme] at h2
  refine ⟨rs, k₁, k₂, h1, h2, h3, fun x => ?_⟩
  obtain ⟨y, _, _, y1, y2, -⟩ := C119_predict E k₁ k₂ h5 h4 x
  rw [measured_plus, hme] at y2
  exact ⟨y, by rw [y1], by rw [y2]⟩

/-- **C119, features.**  A model that begins with a dense layer, with any layers behind, freshly compiled with any loss and any optimizer, is trained; a second one,
which has the opposite weights for the features `q` with `σ q = -1`, is trained on the same data with the signs of these features changed.  Both print the same losses,
and give the same answers to questions measured in their ways. -/
theorem C119_features {es : List Nat} {b n h : Nat} (E : Engine ρ ℝ) (net : Net ρ ℝ) (rest : List (Layer ℝ)) (l : FC ℝ) (m : Bool)
    (hl : net.layers = ⟨.fc l, m⟩ :: rest) (w : List Nat → ℝ) (hw : l.weights = ofFn [n, h] w)
    (hwell : WellShaped net [b, n] es) (ho : ∀ opt, net.optimizer = some opt → FreshOptimizer opt) (σ : Nat → ℝ) (hσ : Signs σ)
    (l' : FC ℝ) (hw' : l'.weights = ofFn [n, h] fun i => σ (i.getD 0 0) * w i) (hb' : l'.biases = l.biases)
    (ps : List ((List Nat → ℝ) × (List Nat → ℝ))) (hne : ps ≠ []) (epochs : Int) :
    ∃ rs k₁ k₂, trainCall E (ps.map fun p => ofFn [b, n] p.1) (ps.map fun p => ofFn es p.2) epochs net = (.ok (), k₁, rs) ∧
      trainCall E (ps.map fun p => ofFn [b, n] fun i => σ (i.getD 1 0) * p.1 i) (ps.map fun p => ofFn es p.2) epochs
        { net with layers := ⟨.fc l', m⟩ :: rest } = (.ok (), k₂, rs) ∧ rs.length = epochs.toNat ∧
      ∀ x, ∃ y, (predict E (ofFn [b, n] x) k₁).1 = .ok (ofFn es y) ∧ (predict E (ofFn [b, n] fun i => σ (i.getD 1 0) * x i) k₂).1 = .ok (ofFn es y) := by
  have hme : ∀ f : List Nat → ℝ, ofFn [b, n] (measured σ nought f) = ofFn [b, n] fun i => σ (i.getD 1 0) * f i := fun f =>
    ofFn_congr fun i hi => by
      obtain ⟨a, c, rfl, -, -⟩ := valid2_iff.1 hi
      exact add_zero _
  obtain ⟨opt, hopt, -⟩ := hwell.2.2
  have hc := hwell.1
  rw [hl] at hc
  obtain ⟨n', h', w0, bias, hw0, hb⟩ := chain_dense hc (p := 0) rfl
  have hd := ofFn_dims_inj (hw.symm.trans hw0)
  simp only [List.cons.injEq, and_true] at hd
  obtain ⟨rfl, rfl⟩ := hd
  have hM : Mirrored (.units n h σ plus nought) σ plus nought ⟨.fc l, m⟩ ⟨.fc l', m⟩ :=
    .dense hσ (fun _ => Or.inl rfl) hw hb (by rw [hw']; simp [plus]) (by rw [hb', hb]; simp [plus, nought])
  have hA : ∃ Rs, MirroredAll Rs σ plus nought (⟨.fc l, m⟩ :: rest) (⟨.fc l', m⟩ :: rest) := by
    by_cases he : rest = []
    · rw [he]; exact ⟨_, .last hM⟩
    · exact ⟨_, .cons hM (mirroredAll_same rest he)⟩
  obtain ⟨Rs, hA⟩ := hA
  obtain ⟨rs, k₁, k₂, h1, h2, h3, h4, h5⟩ := C119_train E net { net with layers := ⟨.fc l', m⟩ :: rest } hwell (Rs := Rs) (σ := σ) (υ := plus) (d := nought)
    ⟨by rw [hl]; exact hA, rfl, rfl, Or.inr ⟨rfl, rfl⟩, opt, opt, hopt, hopt, fresh_mirror (ho opt hopt), Or.inr rfl⟩ ps hne epochs
  simp only [measured_plus, hme] at h2
  refine ⟨rs, k₁, k₂, h1, h2, h3, fun x => ?_⟩
  obtain ⟨y, _, _, y1, y2, -⟩ := C119_predict E k₁ k₂ h5 h4 x
  rw [measured_plus, hme] at y2
  exact ⟨y, by rw [y1], by rw [y2]⟩

/-! ### Units that start at zero -/

theorem mirrorSelf_use {Rs : List Mirroring} {ds es : List Nat} (E : Engine ρ ℝ) {net : Net ρ ℝ} (u : Use) (hu : u.Fits ds es)
    (h : WellShaped net ds es ∧ Mirrors Rs plus plus nought net net) :
    WellShaped (u.apply E net) ds es ∧ Mirrors Rs plus plus nought (u.apply E net) (u.apply E net) := by
  cases u with
  | train xs ys k =>
    obtain ⟨h1, h2, h3, h4⟩ := hu
    have hn : (xs.length : ℝ) ≠ 0 := by
      rw [Ne, Nat.cast_eq_zero, List.length_eq_zero_iff]
      exact h1
    obtain ⟨rs, k₁, k₂, e1, e2, -, e4, e5⟩ := mirrored_epochs (Rs := Rs) (σ := plus) (υ := plus) (d := nought) E (ps := xs.zip ys) (qs := xs.zip ys)
      (List.forall₂_same.2 fun q hq => by
        obtain ⟨f, hf⟩ := h3 _ (List.of_mem_zip hq).1
        obtain ⟨g, hg⟩ := h4 _ (List.of_mem_zip hq).2
        exact ⟨f, g, Prod.ext hf hg, by rw [measured_plus, measured_plus]; exact Prod.ext hf hg⟩) k.toNat net net h.1 h.2
    have t1 := (C55_train E xs ys k net k₁ rs h2 hn).2 e1
    have t2 := (C55_train E xs ys k net k₂ rs h2 hn).2 e2
    have e := t1.symm.trans t2
    simp only [Prod.mk.injEq, true_and, and_true] at e
    subst e
    have a : Use.apply E net (.train xs ys k) = k₁ := congrArg (fun q => q.2.1) t1
    rw [a]
    exact ⟨e5, e4⟩
  | predict x =>
    obtain ⟨f, rfl⟩ := hu
    obtain ⟨y, k₁, k₂, p1, p2, p3, p4⟩ := C119_predict E net net h.1 h.2 f
    rw [measured_plus, measured_plus, p1] at p2
    simp only [Prod.mk.injEq, true_and] at p2
    subst p2
    have a : Use.apply E net (.predict (ofFn ds f)) = k₁ := congrArg Prod.snd p1
    rw [a]
    exact ⟨p4, p3⟩
  | _ => exact hu.elim

theorem mirrorSelf_after {Rs : List Mirroring} {ds es : List Nat} (E : Engine ρ ℝ) : ∀ (us : List Use) {net : Net ρ ℝ}, (∀ u ∈ us, u.Fits ds es) →
    WellShaped net ds es ∧ Mirrors Rs plus plus nought net net →
    WellShaped (after E us net) ds es ∧ Mirrors Rs plus plus nought (after E us net) (after E us net) := by
  intro us
  induction us with
  | nil => intro net _ h; exact h
  | cons u us ih =>
    intro net hu h
    exact ih (fun v hv => hu v (List.mem_cons_of_mem _ hv)) (mirrorSelf_use E u (hu u List.mem_cons_self) h)

/-- The sign of unit `i` is changed. -/
noncomputable def flipUnit (i x : Nat) : ℝ := if x = i then -1 else 1

theorem flipUnit_signs (i : Nat) : Signs (flipUnit i) := by
  intro x
  unfold flipUnit
  split
  · exact Or.inr rfl
  · exact Or.inl rfl

theorem mirroredAll_get {Rs : List Mirroring} {σ υ d : Nat → ℝ} {ls ls' : List (Layer ℝ)} (h : MirroredAll Rs σ υ d ls ls') :
    ∀ {p : Nat} {R : Mirroring}, Rs[p]? = some R → ∃ σ' τ' d' l l', ls[p]? = some l ∧ ls'[p]? = some l' ∧ Mirrored R σ' τ' d' l l' := by
  induction h with
  | last a =>
    intro p R hp
    cases p with
    | zero =>
      simp only [List.getElem?_cons_zero, Option.some.injEq] at hp
      subst hp
      exact ⟨_, _, _, _, _, rfl, rfl, a⟩
    | succ p => simp at hp
  | cons a _ ih =>
    intro p R hp
    cases p with
    | zero =>
      simp only [List.getElem?_cons_zero, Option.some.injEq] at hp
      subst hp
      exact ⟨_, _, _, _, _, rfl, rfl, a⟩
    | succ p =>
      simp only [List.getElem?_cons_succ] at hp ⊢
      exact ih hp

/-- The change of sign of the unit `i` behind layer `p`. -/
noncomputable def flipAt (len p n h m i : Nat) : List Mirroring :=
  List.replicate p .keep ++ (.units n h plus (flipUnit i) nought :: .keep :: .units h m (flipUnit i) plus nought :: List.replicate (len - (p + 3)) .keep)

theorem zero_is_mirror {ls : List (Layer ℝ)} {ds es : List Nat} (hc : Chain ls ds es) {p i : Nat} {a : ActLayer ℝ} {mode : Bool}
    (ha : ls[p + 1]? = some ⟨.activation a, mode⟩) (hs : a.activation = .tanh) (h : ZeroUnit ls p i) :
    ∃ n k m, i < k ∧ MirroredAll (flipAt ls.length p n k m i) plus plus nought ls ls := by
  obtain ⟨f, g, mode₁, mode₂, n, k, m, w, b, v, h1, h2, hw, hb, hv, hi, e1, e2, e3⟩ := h
  obtain ⟨k', m', v', c, hv', hcb⟩ := chain_dense hc h2
  have hd := ofFn_dims_inj (hv.symm.trans hv')
  simp only [List.cons.injEq, and_true] at hd
  obtain ⟨rfl, rfl⟩ := hd
  refine ⟨n, k, m, hi, ?_⟩
  obtain ⟨hl, hp⟩ := split_three h1 ha h2
  have hlen : ls.length - (p + 3) = (ls.drop (p + 3)).length := by rw [List.length_drop]
  have d1 : Mirrored (.units n k plus (flipUnit i) nought) plus (flipUnit i) nought ⟨.fc f, mode₁⟩ ⟨.fc f, mode₁⟩ := by
    refine .dense (fun _ => Or.inl rfl) (flipUnit_signs i) hw hb (hw.trans (ofFn_congr fun x hx => ?_)) (hb.trans (ofFn_congr fun x hx => ?_))
    · obtain ⟨q, u, rfl, hq, hu⟩ := valid2_iff.1 hx
      show w [q, u] = 1 * flipUnit i u * w [q, u]
      unfold flipUnit
      split_ifs with q1
      · rw [q1, e1 q hq]; ring
      · ring
    · obtain ⟨q, u, rfl, hq, hu⟩ := valid2_iff.1 hx
      obtain rfl : q = 0 := by omega
      show b [0, u] = flipUnit i u * b [0, u] + 0
      unfold flipUnit
      split_ifs with q1
      · rw [q1, e2]; ring
      · ring
  have d2 : Mirrored (.units k m (flipUnit i) plus nought) (flipUnit i) plus nought ⟨.fc g, mode₂⟩ ⟨.fc g, mode₂⟩ := by
    refine .dense (flipUnit_signs i) (fun _ => Or.inl rfl) hv hcb (hv.trans (ofFn_congr fun x hx => ?_)) (hcb.trans (ofFn_congr fun x hx => ?_))
    · obtain ⟨u, q, rfl, hu, hq⟩ := valid2_iff.1 hx
      show v [u, q] = flipUnit i u * 1 * v [u, q]
      unfold flipUnit
      split_ifs with q1
      · rw [q1, e3 q hq]; ring
      · ring
    · simp [plus, nought]
  have key : MirroredAll (flipAt ls.length p n k m i) plus plus nought
      (ls.take p ++ ⟨.fc f, mode₁⟩ :: ⟨.activation a, mode⟩ :: ⟨.fc g, mode₂⟩ :: ls.drop (p + 3))
      (ls.take p ++ ⟨.fc f, mode₁⟩ :: ⟨.activation a, mode⟩ :: ⟨.fc g, mode₂⟩ :: ls.drop (p + 3)) := by
    unfold flipAt
    conv in List.replicate p _ => rw [← hp]
    rw [hlen]
    refine mirroredAll_pre (.cons d1 (.cons (.tanh (flipUnit_signs i) hs hs) ?_)) _
    by_cases he : ls.drop (p + 3) = []
    · rw [he]
      exact .last d2
    · exact .cons d2 (mirroredAll_same _ he)
  rw [← hl] at key
  exact key

theorem mirror_is_zero {ls : List (Layer ℝ)} {len p n k m i : Nat} (hi : i < k)
    (h : MirroredAll (flipAt len p n k m i) plus plus nought ls ls) : ZeroUnit ls p i := by
  have g1 : (flipAt len p n k m i)[p]? = some (.units n k plus (flipUnit i) nought) := by
    unfold flipAt
    rw [List.getElem?_append_right (by simp)]
    simp
  have g2 : (flipAt len p n k m i)[p + 2]? = some (.units k m (flipUnit i) plus nought) := by
    unfold flipAt
    rw [List.getElem?_append_right (by simp)]
    simp
  obtain ⟨σ, τ, d, l, l', a1, a2, a3⟩ := mirroredAll_get h g1
  obtain rfl : l = l' := Option.some.inj (a1.symm.trans a2)
  obtain ⟨σ', τ', d', g, g', b1, b2, b3⟩ := mirroredAll_get h g2
  obtain rfl : g = g' := Option.some.inj (b1.symm.trans b2)
  have s : flipUnit i i = -1 := if_pos rfl
  generalize hl : l = l₁ at a3
  generalize hg : g = g₁ at b3
  cases a3 with
  | @dense _ _ _ _ _ w bias f f' mode hσ hτ hw hb hw' hb' =>
    cases b3 with
    | @dense _ _ _ _ _ v c f₂ f₂' mode₂ hσ₂ hτ₂ hv hc hv' hc' =>
      subst hl hg
      refine ⟨f, f₂, mode, mode₂, n, k, m, w, bias, v, a1, b1, hw, hb, hv, hi, fun q hq => ?_, ?_, fun q hq => ?_⟩
      · have : w [q, i] = 1 * flipUnit i i * w [q, i] := ofFn_inj (hw.symm.trans hw') (idx := [q, i]) (valid2_iff.2 ⟨_, _, rfl, hq, hi⟩)
        rw [s] at this
        linarith
      · have : bias [0, i] = flipUnit i i * bias [0, i] + 0 := ofFn_inj (hb.symm.trans hb') (idx := [0, i]) (valid2_iff.2 ⟨_, _, rfl, by omega, hi⟩)
        rw [s] at this
        linarith
      · have : v [i, q] = flipUnit i i * 1 * v [i, q] := ofFn_inj (hv.symm.trans hv') (idx := [i, q]) (valid2_iff.2 ⟨_, _, rfl, hi, hq⟩)
        rw [s] at this
        linarith

/-- **C119, units that start at zero.**  A hidden unit between dense layers, with tanh, whose incoming weights, bias and outgoing weights are all 0, has the same
sign on both of its sides: however often the model is trained, and with any loss and any optimizer, they all stay exactly 0, and the unit never takes part. -/
theorem C119_zero_unit {ds es : List Nat} (E : Engine ρ ℝ) (net : Net ρ ℝ) (h : WellShaped net ds es)
    (ho : ∀ opt, net.optimizer = some opt → FreshOptimizer opt) {p i : Nat} {a : ActLayer ℝ} {mode : Bool}
    (ha : net.layers[p + 1]? = some ⟨.activation a, mode⟩) (hs : a.activation = .tanh) (hz : ZeroUnit net.layers p i)
    (us : List Use) (hu : ∀ u ∈ us, u.Fits ds es) : ZeroUnit (after E us net).layers p i := by
  obtain ⟨n, k, m, hi, hr⟩ := zero_is_mirror h.1 ha hs hz
  obtain ⟨opt, hopt, -⟩ := h.2.2
  obtain ⟨-, h2⟩ := mirrorSelf_after E us hu ⟨h, hr, rfl, rfl, Or.inr ⟨rfl, rfl⟩, opt, opt, hopt, hopt, fresh_mirror (ho opt hopt), Or.inr rfl⟩
  exact mirror_is_zero hi h2.1

/-! ### Concrete models -/

/-- Hypotheses of `C119_targets` are met, with a hidden ReLU layer and Adam: a temperature below zero counted from another zero. -/
example (w1 b1 w bias : List Nat → ℝ) (o : AdamOptions ℝ) (h1 : o.l1Strength ≤ 0) (h2 : o.l2Strength ≤ 0) :
    let l : FC ℝ := { weights := ofFn [3, 2] w, biases := ofFn [1, 2] bias }
    let net : Net Unit ℝ := Net.compile .mse (.newAdam o) ⟨[⟨.fc { weights := ofFn [2, 3] w1, biases := ofFn [1, 3] b1 }, true⟩,
      ⟨.activation ⟨.relu, none⟩, true⟩, ⟨.fc l, true⟩], none, none, ()⟩
    WellShaped net [4, 2] [4, 2] ∧ net.loss = some .mse ∧ (∀ opt, net.optimizer = some opt → Unregularised opt) ∧
    Signs (fun j => if j = 1 then -1 else 1) ∧ measured (fun j => if j = 1 then -1 else 1) (fun _ => 273) (fun _ => 5) [0, 1] = 268 := by
  intro l net
  have d : ∀ {ds : List Nat}, ds ≠ [] → (∀ a ∈ ds, 0 < a) → ds.prod < 2 ^ 31 → Dims ds := fun a b c => ⟨a, b, c⟩
  refine ⟨?_, rfl, ?_, fun j => ?_, ?_⟩
  · refine (C67_compiled (ds := [4, 2]) (es := [4, 2]) _ .mse ?_ (d (by simp) (by simp) (by simp)) ⟨0, 0, 0, 0, false⟩ ⟨0, 0, 0, 0, false, 0⟩ o).2.2
    refine .cons (es := [4, 3]) (.dense (d (by simp) (by simp) (by simp)) (d (by simp) (by simp) (by simp)) (d (by simp) (by simp) (by simp)) rfl rfl) ?_
    refine .cons (es := [4, 3]) (.elementwise (d (by simp) (by simp) (by simp)) (by intro h; cases h)) ?_
    exact .cons (es := [4, 2]) (.dense (d (by simp) (by simp) (by simp)) (d (by simp) (by simp) (by simp)) (d (by simp) (by simp) (by simp)) rfl rfl) (.nil _)
  · rintro _ ⟨⟩
    exact .adam o h1 h2
  · dsimp only
    split
    · exact Or.inr rfl
    · exact Or.inl rfl
  · show (if 1 = 1 then (-1 : ℝ) else 1) * 5 + 273 = 268
    norm_num

/-- Hypotheses of `C119_zero_unit` are met: three hidden tanh units, of which the second has all its parameters 0, with weight decay and the cross entropy;
and hypotheses of `C119_train` for hidden units: the same model and the one with the signs of the third unit changed. -/
example (w v b c : List Nat → ℝ) (o : SGDOptions ℝ) (oa : AdamOptions ℝ) :
    let net (w b v : List Nat → ℝ) : Net Unit ℝ := Net.compile (.crossEntropy (1 / 10)) (.newSGD o) ⟨[⟨.fc { weights := ofFn [2, 3] w, biases := ofFn [1, 3] b }, true⟩,
      ⟨.activation ⟨.tanh, none⟩, true⟩, ⟨.fc { weights := ofFn [3, 2] v, biases := ofFn [1, 2] c }, true⟩], none, none, ()⟩
    let z : List Nat → ℝ := fun i => if i.getD 1 0 = 1 then 0 else w i
    let zb : List Nat → ℝ := fun i => if i.getD 1 0 = 1 then 0 else b i
    let zv : List Nat → ℝ := fun i => if i.getD 0 0 = 1 then 0 else v i
    WellShaped (net z zb zv) [5, 2] [5, 2] ∧ (∀ opt, (net z zb zv).optimizer = some opt → FreshOptimizer opt) ∧ ZeroUnit (net z zb zv).layers 0 1 ∧
    Mirrors [.units 2 3 plus (flipUnit 2) nought, .keep, .units 3 2 (flipUnit 2) plus nought] plus plus nought (net w b v)
      (net (fun i => flipUnit 2 (i.getD 1 0) * w i) (fun i => flipUnit 2 (i.getD 1 0) * b i) fun i => flipUnit 2 (i.getD 0 0) * v i) := by
  intro net z zb zv
  have d : ∀ {ds : List Nat}, ds ≠ [] → (∀ a ∈ ds, 0 < a) → ds.prod < 2 ^ 31 → Dims ds := fun a b c => ⟨a, b, c⟩
  refine ⟨?_, ?_, ⟨_, _, _, _, 2, 3, 2, _, _, _, rfl, rfl, rfl, rfl, rfl, by omega, fun _ _ => if_pos rfl, if_pos rfl, fun _ _ => if_pos rfl⟩, ?_⟩
  · refine (C67_compiled (ds := [5, 2]) (es := [5, 2]) _ (.crossEntropy (1 / 10)) ?_ ⟨5, 2, rfl, d (by simp) (by simp) (by simp)⟩ o
      ⟨0, 0, 0, 0, false, 0⟩ oa).1
    refine .cons (es := [5, 3]) (.dense (d (by simp) (by simp) (by simp)) (d (by simp) (by simp) (by simp)) (d (by simp) (by simp) (by simp)) rfl rfl) ?_
    refine .cons (es := [5, 3]) (.elementwise (d (by simp) (by simp) (by simp)) (by intro h; cases h)) ?_
    exact .cons (es := [5, 2]) (.dense (d (by simp) (by simp) (by simp)) (d (by simp) (by simp) (by simp)) (d (by simp) (by simp) (by simp)) rfl rfl) (.nil _)
  · rintro _ ⟨⟩
    exact Or.inl ⟨o, rfl⟩
  · refine ⟨.cons (.dense (fun _ => Or.inl rfl) (flipUnit_signs 2) rfl rfl (by simp [plus]) (by simp [nought]))
      (.cons (.tanh (flipUnit_signs 2) rfl rfl) (.last (.dense (flipUnit_signs 2) (fun _ => Or.inl rfl) rfl rfl (by simp [plus]) (by simp [plus, nought])))),
      rfl, rfl, Or.inr ⟨rfl, rfl⟩, _, _, rfl, rfl, fresh_mirror (Or.inl ⟨o, rfl⟩), Or.inr rfl⟩

end SmartDNN
