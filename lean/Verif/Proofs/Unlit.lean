import Verif.Spec.Unlit
import Verif.Proofs.Silent

namespace SmartDNN
open Net Spec

variable {ρ : Type}

theorem front_chain {pre : List (Layer ℝ)} (hf : Front pre) {l : FC ℝ} {m : Bool} {rest : List (Layer ℝ)} {b h : Nat} {ds es : List Nat} {w : List Nat → ℝ}
    (hc : Chain (pre ++ ⟨.fc l, m⟩ :: rest) (b :: ds) es) (hw : l.weights = ofFn [ds.prod, h] w) :
    Chain (⟨.fc l, m⟩ :: rest) [b, ds.prod] es ∧ ∀ (E : Engine ρ ℝ) (r : ρ) (x : List Nat → ℝ), ∃ (X : List Nat → ℝ) (pre' : List (Layer ℝ)),
      forwardLayers E pre (ofFn (b :: ds) x) r = (.ok (ofFn [b, ds.prod] X), pre', r) ∧ Front pre' ∧ pre'.length = pre.length ∧
      (∀ idx, ValidIdx ds idx → ∀ i < b, X [i, ravel ds idx] = x (i :: idx)) ∧
      ∀ z, ∃ z' pre'', backwardLayers pre' (ofFn [b, ds.prod] z) = (.ok z', pre'') ∧ Front pre'' ∧ pre''.length = pre.length := by
  rcases hf with rfl | ⟨f, md, rfl⟩
  · have h0 := hc
    cases hc with
    | cons hl hls =>
      cases hl with
      | @dense _ n _ _ _ _ _ h1 h2 h3 hlw hlb =>
        simp only [List.prod_cons, List.prod_nil, mul_one] at hw ⊢
        refine ⟨h0, fun E r x => ⟨x, [], rfl, .inl rfl, rfl, fun idx hi i _ => ?_, fun z => ⟨_, [], rfl, .inl rfl, rfl⟩⟩⟩
        rcases idx with _ | ⟨q, _ | ⟨q', t⟩⟩
        · exact absurd hi (by simp [ValidIdx])
        · simp [ravel]
        · exact absurd hi (by simp [ValidIdx])
  · simp only [List.cons_append, List.nil_append] at hc
    cases hc with
    | cons hl hls =>
      cases hl with
      | @flatten _ _ _ _ hd hr =>
        have hp : [b, ds.prod].prod = (b :: ds).prod := by simp
        refine ⟨hls, fun E r x => ⟨fun j => x (reindex [b, ds.prod] (b :: ds) j), [⟨.flatten { f with originalShape := some (shapeOf (b :: ds)) }, md⟩], ?_,
          .inr ⟨_, _, rfl⟩, rfl, fun idx hi i hib => ?_, fun z => ⟨ofFn (b :: ds) fun i => z (reindex (b :: ds) [b, ds.prod] i),
            [⟨.flatten { f with originalShape := some (shapeOf (b :: ds)) }, md⟩], ?_, .inr ⟨_, _, rfl⟩, rfl⟩⟩⟩
        · unfold forwardLayers
          simp only [Layer.forward, Layer.onKind]
          rw [flatten_forward hd hr, reinterpret_ofFn hp]
          rfl
        · show x (reindex [b, ds.prod] (b :: ds) [i, ravel ds idx]) = _
          congr 1
          have hv : ValidIdx (b :: ds) (i :: idx) := by simp_all [ValidIdx]
          unfold reindex
          have e : ravel [b, ds.prod] [i, ravel ds idx] = ravel (b :: ds) (i :: idx) := by simp [ravel]
          rw [e, List.getD_eq_getElem?_getD, indices_ravel hv]
          rfl
        · unfold backwardLayers
          have : Flatten.backward (ofFn [b, ds.prod] z) { f with originalShape := some (shapeOf (b :: ds)) } =
              (.ok (ofFn (b :: ds) fun i => z (reindex (b :: ds) [b, ds.prod] i)), { f with originalShape := some (shapeOf (b :: ds)) }) := by
            show (Tensor.reshape _ _, _) = _
            rw [shapeOf_dims, reshape_back hd hp.symm]
          simp only [backwardLayers, Layer.backward, Layer.onKind]
          rw [this]

theorem front_updated {pre ls R : List (Layer ℝ)} (hf : Front pre) (h : List.Forall₂ Updated (pre ++ ls) R) :
    ∃ ls', R = pre ++ ls' ∧ List.Forall₂ Updated ls ls' := by
  rcases hf with rfl | ⟨f, m, rfl⟩
  · exact ⟨R, rfl, h⟩
  · rcases R with _ | ⟨a, R⟩
    · cases h
    · obtain ⟨h1, h2⟩ := List.forall₂_cons.1 h
      cases h1
      exact ⟨R, rfl, h2⟩

/-- The first dense layer is layer number `p`, and its weights from the feature `idx` are as in `w`. -/
def Unlit (b h p : Nat) (ds es idx : List Nat) (m : Bool) (w : List Nat → ℝ) (net : Net ρ ℝ) : Prop :=
  WellShaped net (b :: ds) es ∧ (∃ (pre : List (Layer ℝ)) (l : FC ℝ) (rest : List (Layer ℝ)) (w' bias' : List Nat → ℝ),
    net.layers = pre ++ ⟨.fc l, m⟩ :: rest ∧ Front pre ∧ pre.length = p ∧ l.weights = ofFn [ds.prod, h] w' ∧ l.biases = ofFn [1, h] bias' ∧
    ∀ c < h, w' [ravel ds idx, c] = w [ravel ds idx, c]) ∧
  ∀ opt, net.optimizer = some opt → QuietOn opt (p, false) (rowOf ds.prod h (ravel ds idx)) ∧ QuietOn opt (p, true) fun _ => False

theorem unlit_predict {b h : Nat} {ds es : List Nat} (E : Engine ρ ℝ) {net : Net ρ ℝ} {pre rest : List (Layer ℝ)} {l : FC ℝ} {m : Bool}
    {w bias : List Nat → ℝ} (hl : net.layers = pre ++ ⟨.fc l, m⟩ :: rest) (hf : Front pre) (hlw : l.weights = ofFn [ds.prod, h] w)
    (hlb : l.biases = ofFn [1, h] bias) (hc : Chain net.layers (b :: ds) es) (x : List Nat → ℝ) :
    ∃ (X y : List Nat → ℝ) (pre' ls' : List (Layer ℝ)) (r' : ρ), (∀ idx, ValidIdx ds idx → ∀ i < b, X [i, ravel ds idx] = x (i :: idx)) ∧ Front pre' ∧ pre'.length = pre.length ∧
      predict E (ofFn (b :: ds) x) net = (.ok (ofFn es y), { net with layers := pre' ++ ⟨.fc { l with input := some (ofFn [b, ds.prod] X) }, m⟩ :: ls', rng := r' }) ∧
      ∀ g, ∃ (ls'' pre'' : List (Layer ℝ)) (z : List Nat → ℝ) (t : Tensor ℝ), Front pre'' ∧ pre''.length = pre.length ∧
        backward (ofFn es g) { net with layers := pre' ++ ⟨.fc { l with input := some (ofFn [b, ds.prod] X) }, m⟩ :: ls', rng := r' } = (.ok t, { net with
          layers := pre'' ++ ⟨.fc { l with
            input := some (ofFn [b, ds.prod] X)
            weightGradients := some (ofFn [ds.prod, h] fun i => ∑ q ∈ Finset.range b, X [q, i.getD 0 0] * z [q, i.getD 1 0])
            biasGradients := some (ofFn [1, h] fun i => ∑ q ∈ Finset.range b, z [q, i.getD 1 0]) }, m⟩ :: ls'', rng := r' }) := by
  rw [hl] at hc
  obtain ⟨hc1, hfw⟩ := front_chain (ρ := ρ) hf hc hlw
  obtain ⟨X, pre', p1, p2, p3, p4, p5⟩ := hfw E net.rng x
  obtain ⟨d1, d2, d3, -, hc2⟩ := silent_chain_dense hc1 hlw
  obtain ⟨y, ls', r', f1, -, -, f4⟩ := chain_step hc2 E net.rng (affine ds.prod w bias X)
  refine ⟨X, y, pre', ls', r', p4, p2, p3, ?_, fun g => ?_⟩
  · unfold predict
    rw [hl, forwardLayers_append E p1]
    unfold forwardLayers
    simp only [Layer.forward, Layer.onKind]
    rw [C37_batch d3 w bias X l hlw hlb]
    simp only
    rw [f1]
  · obtain ⟨z, ls'', k1, -, -, -⟩ := f4 g
    have hbk := fc_backprop d1 d2 d3 w bias X z l hlw hlb
    obtain ⟨z', pre'', b1, b2, b3⟩ := p5 fun i => ∑ j ∈ Finset.range h, z [i.getD 0 0, j] * w [i.getD 1 0, j]
    refine ⟨ls'', pre'', z, z', b2, b3, ?_⟩
    have hb : backwardLayers (⟨.fc { l with input := some (ofFn [b, ds.prod] X) }, m⟩ :: ls') (ofFn es g) =
        (.ok (ofFn [b, ds.prod] fun i => ∑ j ∈ Finset.range h, z [i.getD 0 0, j] * w [i.getD 1 0, j]), ⟨.fc { l with
            input := some (ofFn [b, ds.prod] X)
            weightGradients := some (ofFn [ds.prod, h] fun i => ∑ q ∈ Finset.range b, X [q, i.getD 0 0] * z [q, i.getD 1 0])
            biasGradients := some (ofFn [1, h] fun i => ∑ q ∈ Finset.range b, z [q, i.getD 1 0]) }, m⟩ :: ls'') := by
      unfold backwardLayers
      rw [k1]
      simp only [Layer.backward, Layer.onKind]
      rw [hbk]
    unfold backward
    simp only
    rw [backwardLayers_append hb, b1]

theorem unlit_step {b h p : Nat} {ds es idx : List Nat} (hi : ValidIdx ds idx) {m : Bool} {w : List Nat → ℝ} (E : Engine ρ ℝ) {net net' : Net ρ ℝ}
    (hA : Unlit b h p ds es idx m w net) {x t : List Nat → ℝ} (hx : ∀ i < b, x (i :: idx) = 0) {v : ℝ}
    (hst : StepOk E (ofFn (b :: ds) x) (ofFn es t) net net' v) (hwell' : WellShaped net' (b :: ds) es) : Unlit b h p ds es idx m w net' := by
  obtain ⟨hwell, ⟨pre, l, rest, w', bias', hl, hf, hp, hlw, hlb, hw⟩, hq⟩ := hA
  obtain ⟨hc, ⟨L, hL, hfit⟩, opt, ho, hr⟩ := hwell
  have hc1 := hc
  rw [hl] at hc1
  obtain ⟨d1, d2, d3, -, -⟩ := silent_chain_dense (front_chain (ρ := ρ) hf hc1 hlw).1 hlw
  obtain ⟨X, y, pre', ls', r', x1, x2, x3, x4, x5⟩ := unlit_predict E hl hf hlw hlb hc x
  obtain ⟨v0, g, l1, l2⟩ := loss_ok hfit y t
  obtain ⟨ls'', pre'', z, u, y1, y2, y3⟩ := x5 g
  obtain ⟨pred, n1, L', g', g2, n2, s1, s2, s3, s4, s5, s6⟩ := hst
  rw [x4] at s1
  simp only [Prod.mk.injEq, Except.ok.injEq] at s1
  obtain ⟨rfl, rfl⟩ := s1
  simp only at s2
  rw [hL] at s2
  cases s2
  rw [l2] at s4
  cases s4
  rw [y3] at s5
  simp only [Prod.mk.injEq, Except.ok.injEq] at s5
  obtain ⟨rfl, hn2⟩ := s5
  have ho2 : n2.optimizer = some opt := by rw [← hn2]; exact ho
  rw [net_updateWeights_eq n2 opt ho2, ← hn2] at s6
  simp only [Prod.mk.injEq] at s6
  have u1 := (congrArg Net.layers s6.2).symm
  have u2 := (congrArg Net.optimizer s6.2).symm
  simp only at u1 u2
  obtain ⟨q0, q1⟩ := hq opt ho
  have hrow : ravel ds idx < ds.prod := ravel_lt hi
  set c : FC ℝ := { l with
    input := some (ofFn [b, ds.prod] X)
    weightGradients := some (ofFn [ds.prod, h] fun i => ∑ q ∈ Finset.range b, X [q, i.getD 0 0] * z [q, i.getD 1 0])
    biasGradients := some (ofFn [1, h] fun i => ∑ q ∈ Finset.range b, z [q, i.getD 1 0]) } with hcdef
  have hat : (pre'' ++ ⟨.fc c, m⟩ :: ls'')[p]? = some ⟨.fc c, m⟩ := by
    rw [List.getElem?_append_right (by omega), y2, hp]
    simp
  obtain ⟨⟨c', e1, e2, -⟩, e4, e5⟩ := updateLayers_frozen (S1 := fun _ => False) (c := c) (mode := m) rfl rfl
    (zeroOn_row (h := ds.prod) (k := h) hrow fun c _ => Finset.sum_eq_zero fun i hi' => by
      simp only [List.getD_cons_zero]
      rw [x1 idx hi i (Finset.mem_range.1 hi'), hx i (Finset.mem_range.1 hi'), zero_mul]) (fun _ h => h.elim) _ 0 p opt hat (by rwa [zero_add]) (by rwa [zero_add])
  rw [zero_add] at e4 e5
  refine ⟨hwell', ?_, ?_⟩
  · rw [u1]
    obtain ⟨R, hR, hup⟩ := front_updated y1 (updateLayers_changes (pre'' ++ ⟨.fc c, m⟩ :: ls'') 0 opt)
    rw [hR] at e1 ⊢
    rcases R with _ | ⟨p0, R⟩
    · cases hup
    obtain ⟨v3, hup⟩ := List.forall₂_cons.1 hup
    obtain ⟨k', w2, b2, rfl, k1, k2⟩ := updated_fc v3 hlw hlb d2 (dims_bias d3)
    rw [List.getElem?_append_right (by omega), y2, hp] at e1
    simp only [Nat.sub_self, List.getElem?_cons_zero, Option.some.injEq, Layer.mk.injEq, LayerKind.fc.injEq, and_true] at e1
    subst e1
    rw [show c.weights = ofFn [ds.prod, h] w' from hlw, k1] at e2
    exact ⟨pre'', k', R, w2, b2, rfl, y1, y2.trans hp, k1, k2, fun c hc => (sameOn_row hrow e2 c hc).trans (hw c hc)⟩
  · intro o' ho'
    rw [u2] at ho'
    cases ho'
    exact ⟨e4, e5⟩

section
variable {b h p : Nat} {ds es idx : List Nat} {m : Bool} {w : List Nat → ℝ}

theorem unlit_steps (hi : ValidIdx ds idx) (E : Engine ρ ℝ) {ps : List (Tensor ℝ × Tensor ℝ)}
    (hp : ∀ q ∈ ps, (∃ f, q.1 = ofFn (b :: ds) f ∧ ∀ i < b, f (i :: idx) = 0) ∧ HasDims es q.2) {net net' : Net ρ ℝ} {vs : List ℝ}
    (hs : Steps E ps net net' vs) (hA : Unlit b h p ds es idx m w net) : Unlit b h p ds es idx m w net' := by
  induction hs with
  | nil => exact hA
  | @cons x y ps net net1 net2 v vs h1 _ ih =>
    obtain ⟨⟨f, rfl, hf⟩, ⟨t, rfl⟩⟩ := hp _ List.mem_cons_self
    refine ih (fun q hq => hp q (List.mem_cons_of_mem _ hq)) ?_
    obtain ⟨net1', v', s1, s2⟩ := C67_step E net hA.1 _ _ ⟨f, rfl⟩ ⟨t, rfl⟩
    have : net1' = net1 := stepOk_unique s1 h1
    exact unlit_step hi E hA hf h1 (this ▸ s2)

theorem unlit_epochs (hi : ValidIdx ds idx) (E : Engine ρ ℝ) {ps : List (Tensor ℝ × Tensor ℝ)}
    (hp : ∀ q ∈ ps, (∃ f, q.1 = ofFn (b :: ds) f ∧ ∀ i < b, f (i :: idx) = 0) ∧ HasDims es q.2) {k : Nat} {net net' : Net ρ ℝ} {rs : List (Tensor ℝ)}
    (hs : Epochs E ps k net net' rs) (hA : Unlit b h p ds es idx m w net) : Unlit b h p ds es idx m w net' := by
  induction hs with
  | zero => exact hA
  | succ h1 _ ih => exact ih (unlit_steps hi E hp h1 hA)

theorem unlit_use (hi : ValidIdx ds idx) (E : Engine ρ ℝ) {net : Net ρ ℝ} (u : Use) (hu : u.UnlitAt b ds es idx)
    (hA : Unlit b h p ds es idx m w net) : Unlit b h p ds es idx m w (u.apply E net) := by
  cases u with
  | train xs ys k =>
    obtain ⟨h1, h2, h3, h4⟩ := hu
    obtain ⟨net', rs, t1, -, -⟩ := C67_train E net hA.1 xs ys k h1 h2 (fun x hx => by obtain ⟨f, rfl, -⟩ := h3 x hx; exact ⟨f, rfl⟩) h4
    have e : Use.apply E net (.train xs ys k) = net' := congrArg (fun q => q.2.1) t1
    rw [e]
    have hn : (xs.length : ℝ) ≠ 0 := by
      rw [Ne, Nat.cast_eq_zero, List.length_eq_zero_iff]
      exact h1
    exact unlit_epochs hi E (fun q hq => ⟨h3 _ (List.of_mem_zip hq).1, h4 _ (List.of_mem_zip hq).2⟩)
      ((C55_train E xs ys k net net' rs h2 hn).1 t1) hA
  | predict x =>
    obtain ⟨f, rfl⟩ := hu
    obtain ⟨y, net', p1, -, p3⟩ := C67_predict E net hA.1 (ofFn (b :: ds) f) ⟨f, rfl⟩
    have e : Use.apply E net (.predict (ofFn (b :: ds) f)) = net' := congrArg Prod.snd p1
    rw [e]
    obtain ⟨hwell, ⟨pre, l, rest, w', bias', hl, hf, hpl, hlw, hlb, hw⟩, hq⟩ := hA
    obtain ⟨X, y, pre', ls', r', x1, x2, x3, x4, -⟩ := unlit_predict E hl hf hlw hlb hwell.1 f
    rw [x4] at p1
    simp only [Prod.mk.injEq] at p1
    obtain ⟨-, rfl⟩ := p1
    exact ⟨p3, ⟨pre', _, ls', w', bias', rfl, x2, x3.trans hpl, hlw, hlb, hw⟩, hq⟩
  | _ => exact hu.elim

theorem unlit_after (hi : ValidIdx ds idx) (E : Engine ρ ℝ) : ∀ (us : List Use) {net : Net ρ ℝ},
    (∀ u ∈ us, u.UnlitAt b ds es idx) → Unlit b h p ds es idx m w net → Unlit b h p ds es idx m w (after E us net) := by
  intro us
  induction us with
  | nil => intro net _ h; exact h
  | cons u us ih =>
    intro net hu h
    exact ih (fun v hv => hu v (List.mem_cons_of_mem _ hv)) (unlit_use hi E u (hu u List.mem_cons_self) h)

end

end SmartDNN
