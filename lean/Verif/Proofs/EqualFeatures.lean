import Verif.Spec.EqualFeatures
import Verif.Proofs.EvenOn

namespace SmartDNN
open Net Spec

variable {ρ : Type}

/-- Positions of a matrix in the same column, in rows `r1` and `r2`. -/
def rowPair (h r1 r2 : Nat) (i j : List Nat) : Prop := ∃ c < h, i = [r1, c] ∧ j = [r2, c]

/-- The first dense layer is layer number `p`, and its weights from the features `i1` and `i2` differ by as much as in `w`. -/
def EqualF (b h p : Nat) (ds es i1 i2 : List Nat) (m : Bool) (w : List Nat → ℝ) (net : Net ρ ℝ) : Prop :=
  WellShaped net (b :: ds) es ∧ (∃ (pre : List (Layer ℝ)) (l : FC ℝ) (rest : List (Layer ℝ)) (w' bias' : List Nat → ℝ),
    net.layers = pre ++ ⟨.fc l, m⟩ :: rest ∧ Front pre ∧ pre.length = p ∧ l.weights = ofFn [ds.prod, h] w' ∧ l.biases = ofFn [1, h] bias' ∧
    ∀ c < h, w' [ravel ds i1, c] - w' [ravel ds i2, c] = w [ravel ds i1, c] - w [ravel ds i2, c]) ∧
  ∀ opt, net.optimizer = some opt → EvenOn opt (p, false) [ds.prod, h] (rowPair h (ravel ds i1) (ravel ds i2))

theorem equal_step {b h p : Nat} {ds es i1 i2 : List Nat} (hi1 : ValidIdx ds i1) (hi2 : ValidIdx ds i2) {m : Bool} {w : List Nat → ℝ} (E : Engine ρ ℝ)
    {net net' : Net ρ ℝ} (hA : EqualF b h p ds es i1 i2 m w net) {x t : List Nat → ℝ} (hx : ∀ i < b, x (i :: i1) = x (i :: i2)) {v : ℝ}
    (hst : StepOk E (ofFn (b :: ds) x) (ofFn es t) net net' v) (hwell' : WellShaped net' (b :: ds) es) : EqualF b h p ds es i1 i2 m w net' := by
  obtain ⟨hwell, ⟨pre, l, rest, w', bias', hl, hf, hp, hlw, hlb, hw⟩, hq⟩ := hA
  obtain ⟨hc, ⟨L, hL, hfit⟩, opt, ho, hr⟩ := hwell
  have hc1 := hc
  rw [hl] at hc1
  obtain ⟨d1, d2, d3, -, -⟩ := silent_chain_dense (front_chain (ρ := ρ) hf hc1 hlw).1 hlw
  obtain ⟨X, y, pre', ls', r', x1, x2, x3, x4, x5⟩ := unlit_predict E hl hf hlw hlb hc x
  have hXX : ∀ i < b, X [i, ravel ds i1] = X [i, ravel ds i2] := fun i hi => by rw [x1 i1 hi1 i hi, x1 i2 hi2 i hi, hx i hi]
  obtain ⟨v0, g, l1, l2⟩ := loss_ok hfit y t
  obtain ⟨ls'', pre'', z, u, y1, y2, y3⟩ := x5 g
  obtain ⟨pred, n1, L', g', g2, n2, s1, s2, s3, s4, s5, s6⟩ := hst
  rw [x4] at s1
  simp only [Prod.mk.injEq, Except.ok.injEq] at s1
  obtain ⟨rfl, rfl⟩ := s1
  simp only at s2
  rw [hL] at s2
  cases s2
  rw [l2] at s4
  cases s4
  rw [y3] at s5
  simp only [Prod.mk.injEq, Except.ok.injEq] at s5
  obtain ⟨rfl, hn2⟩ := s5
  have ho2 : n2.optimizer = some opt := by rw [← hn2]; exact ho
  rw [net_updateWeights_eq n2 opt ho2, ← hn2] at s6
  simp only [Prod.mk.injEq] at s6
  have u1 := (congrArg Net.layers s6.2).symm
  have u2 := (congrArg Net.optimizer s6.2).symm
  simp only at u1 u2
  have q0 := hq opt ho
  set c : FC ℝ := { l with
    input := some (ofFn [b, ds.prod] X)
    weightGradients := some (ofFn [ds.prod, h] fun i => ∑ q ∈ Finset.range b, X [q, i.getD 0 0] * z [q, i.getD 1 0])
    biasGradients := some (ofFn [1, h] fun i => ∑ q ∈ Finset.range b, z [q, i.getD 1 0]) } with hcdef
  have hat : (pre'' ++ ⟨.fc c, m⟩ :: ls'')[p]? = some ⟨.fc c, m⟩ := by
    rw [List.getElem?_append_right (by omega), y2, hp]
    simp
  obtain ⟨⟨c', e1, e2⟩, e4⟩ := updateLayers_even (P := rowPair h (ravel ds i1) (ravel ds i2)) (f := w) (c := c) (mode := m) rfl rfl
    ⟨_, rfl, by
      rintro _ _ ⟨a, ha, rfl, rfl⟩
      refine Finset.sum_congr rfl fun q hq' => ?_
      simp only [List.getD_cons_zero, List.getD_cons_succ]
      rw [hXX q (Finset.mem_range.1 hq')]⟩
    ⟨w', hlw, by
      rintro _ _ ⟨a, ha, rfl, rfl⟩
      exact hw a ha⟩ _ 0 p opt hat (by rwa [zero_add])
  rw [zero_add] at e4
  refine ⟨hwell', ?_, ?_⟩
  · rw [u1]
    obtain ⟨R, hR, hup⟩ := front_updated y1 (updateLayers_changes (pre'' ++ ⟨.fc c, m⟩ :: ls'') 0 opt)
    rw [hR] at e1 ⊢
    rcases R with _ | ⟨p0, R⟩
    · cases hup
    obtain ⟨v3, hup⟩ := List.forall₂_cons.1 hup
    obtain ⟨k', w2, b2, rfl, k1, k2⟩ := updated_fc v3 hlw hlb d2 (dims_bias d3)
    rw [List.getElem?_append_right (by omega), y2, hp] at e1
    simp only [Nat.sub_self, List.getElem?_cons_zero, Option.some.injEq, Layer.mk.injEq, LayerKind.fc.injEq, and_true] at e1
    subst e1
    obtain ⟨w3, k3, k4⟩ := e2
    exact ⟨pre'', k', R, w3, b2, rfl, y1, y2.trans hp, k3, k2, fun c hc => k4 _ _ ⟨c, hc, rfl, rfl⟩⟩
  · intro o' ho'
    rw [u2] at ho'
    cases ho'
    exact e4

section
variable {b h p : Nat} {ds es i1 i2 : List Nat} {m : Bool} {w : List Nat → ℝ}

theorem equal_steps (hi1 : ValidIdx ds i1) (hi2 : ValidIdx ds i2) (E : Engine ρ ℝ) {ps : List (Tensor ℝ × Tensor ℝ)}
    (hp : ∀ q ∈ ps, (∃ f, q.1 = ofFn (b :: ds) f ∧ ∀ i < b, f (i :: i1) = f (i :: i2)) ∧ HasDims es q.2) {net net' : Net ρ ℝ} {vs : List ℝ}
    (hs : Steps E ps net net' vs) (hA : EqualF b h p ds es i1 i2 m w net) : EqualF b h p ds es i1 i2 m w net' := by
  induction hs with
  | nil => exact hA
  | @cons x y ps net net1 net2 v vs h1 _ ih =>
    obtain ⟨⟨f, rfl, hf⟩, ⟨t, rfl⟩⟩ := hp _ List.mem_cons_self
    refine ih (fun q hq => hp q (List.mem_cons_of_mem _ hq)) ?_
    obtain ⟨net1', v', s1, s2⟩ := C67_step E net hA.1 _ _ ⟨f, rfl⟩ ⟨t, rfl⟩
    have : net1' = net1 := stepOk_unique s1 h1
    exact equal_step hi1 hi2 E hA hf h1 (this ▸ s2)

theorem equal_epochs (hi1 : ValidIdx ds i1) (hi2 : ValidIdx ds i2) (E : Engine ρ ℝ) {ps : List (Tensor ℝ × Tensor ℝ)}
    (hp : ∀ q ∈ ps, (∃ f, q.1 = ofFn (b :: ds) f ∧ ∀ i < b, f (i :: i1) = f (i :: i2)) ∧ HasDims es q.2) {k : Nat} {net net' : Net ρ ℝ} {rs : List (Tensor ℝ)}
    (hs : Epochs E ps k net net' rs) (hA : EqualF b h p ds es i1 i2 m w net) : EqualF b h p ds es i1 i2 m w net' := by
  induction hs with
  | zero => exact hA
  | succ h1 _ ih => exact ih (equal_steps hi1 hi2 E hp h1 hA)

theorem equal_use (hi1 : ValidIdx ds i1) (hi2 : ValidIdx ds i2) (E : Engine ρ ℝ) {net : Net ρ ℝ} (u : Use) (hu : u.EqualAt b ds es i1 i2)
    (hA : EqualF b h p ds es i1 i2 m w net) : EqualF b h p ds es i1 i2 m w (u.apply E net) := by
  cases u with
  | train xs ys k =>
    obtain ⟨h1, h2, h3, h4⟩ := hu
    obtain ⟨net', rs, t1, -, -⟩ := C67_train E net hA.1 xs ys k h1 h2 (fun x hx => by obtain ⟨f, rfl, -⟩ := h3 x hx; exact ⟨f, rfl⟩) h4
    have e : Use.apply E net (.train xs ys k) = net' := congrArg (fun q => q.2.1) t1
    rw [e]
    have hn : (xs.length : ℝ) ≠ 0 := by
      rw [Ne, Nat.cast_eq_zero, List.length_eq_zero_iff]
      exact h1
    exact equal_epochs hi1 hi2 E (fun q hq => ⟨h3 _ (List.of_mem_zip hq).1, h4 _ (List.of_mem_zip hq).2⟩)
      ((C55_train E xs ys k net net' rs h2 hn).1 t1) hA
  | predict x =>
    obtain ⟨f, rfl⟩ := hu
    obtain ⟨y, net', p1, -, p3⟩ := C67_predict E net hA.1 (ofFn (b :: ds) f) ⟨f, rfl⟩
    have e : Use.apply E net (.predict (ofFn (b :: ds) f)) = net' := congrArg Prod.snd p1
    rw [e]
    obtain ⟨hwell, ⟨pre, l, rest, w', bias', hl, hf, hpl, hlw, hlb, hw⟩, hq⟩ := hA
    obtain ⟨X, y, pre', ls', r', x1, x2, x3, x4, -⟩ := unlit_predict E hl hf hlw hlb hwell.1 f
    rw [x4] at p1
    simp only [Prod.mk.injEq] at p1
    obtain ⟨-, rfl⟩ := p1
    exact ⟨p3, ⟨pre', _, ls', w', bias', rfl, x2, x3.trans hpl, hlw, hlb, hw⟩, hq⟩
  | _ => exact hu.elim

theorem equal_after (hi1 : ValidIdx ds i1) (hi2 : ValidIdx ds i2) (E : Engine ρ ℝ) : ∀ (us : List Use) {net : Net ρ ℝ},
    (∀ u ∈ us, u.EqualAt b ds es i1 i2) → EqualF b h p ds es i1 i2 m w net → EqualF b h p ds es i1 i2 m w (after E us net) := by
  intro us
  induction us with
  | nil => intro net _ h; exact h
  | cons u us ih =>
    intro net hu h
    exact ih (fun v hv => hu v (List.mem_cons_of_mem _ hv)) (equal_use hi1 hi2 E u (hu u List.mem_cons_self) h)

end

end SmartDNN
