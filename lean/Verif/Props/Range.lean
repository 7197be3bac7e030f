import Verif.Proofs.Range
import Verif.Props.Classifier

/-!
# C102: the last activation fixes the range of all predictions; printed losses are never negative
-/

namespace SmartDNN
open Net Spec

section
variable {ρ : Type}

/-- **C102 (one activation).** What an activation returns lies in its range, for arguments of any shape and size. -/
theorem C102_activation (a : Act ℝ) {x : Tensor ℝ} (hx : Intact x) : ∀ y, a.forward x = .ok y → InRange a y := act_inRange a hx

/-- **C102 (predictions).** Take any model (any layers, any weights) whose last layer is the activation `a`.  Through any history of
calls that keep the list of layers (training on any data, for any number of epochs, with any optimizer; calls that throw) it still
ends in `a`, and every prediction it then returns, in either mode, for one input or for a list, lies in the range of `a`. -/
theorem C102_predictions (E : Engine ρ ℝ) (vs : List (Visit ℝ)) {a : Act ℝ} {net : Net ρ ℝ} (h : IntactNet net) (ha : EndsIn a net)
    (hv : ∀ v ∈ vs, v.Proper ∧ v.KeepsLayers) (b : Bool) :
    EndsIn a (visits E vs net).1 ∧
    (∀ x y, Intact x → (Net.predict E x ((visits E vs net).1.setTrainingMode b)).1 = .ok y → InRange a y) ∧
    ∀ xs ys, (∀ x ∈ xs, Intact x) → (Net.predictAll E xs ((visits E vs net).1.setTrainingMode b)).1 = .ok ys → ∀ y ∈ ys, InRange a y := by
  have h1 := (C101_model E vs h fun v hv' => (hv v hv').1).1
  have h2 : EndsIn a (visits E vs net).1 := by
    rw [endsIn_iff, visits_acts E vs (fun v hv' => (hv v hv').2), ← endsIn_iff]
    exact ha
  have h3 := (intact_visit E h1 (v := .mode b) trivial).1
  have h4 : EndsIn a ((visits E vs net).1.setTrainingMode b) := by
    rw [endsIn_iff, show acts ((visits E vs net).1.setTrainingMode b) = _ from visit_acts E (.mode b) trivial _, ← endsIn_iff]
    exact h2
  exact ⟨h2, fun x y hx hy => predict_inRange E h3 h4 hx y hy, fun xs ys hx hy => (predictAll_inRange E xs hx _ ⟨h3, h4⟩).2 ys hy⟩

/-- **C102 (losses).** The losses that training prints are never negative: for the squared error whatever the model and the data; for
the cross entropy if the targets have no negative entries (probabilities or one-hot rows).  This covers the epochs before a call
that throws. -/
theorem C102_losses (E : Engine ρ ℝ) (xs ys : List (Tensor ℝ)) (epochs : Int) (net : Net ρ ℝ)
    (hy : ∀ l, net.loss = some l → ∀ t ∈ ys, GoodTarget l t) : ∀ p ∈ (trainCall E xs ys epochs net).2.2, ∀ v ∈ p.data, 0 ≤ v :=
  fun p hp => (train_nonneg E xs ys epochs hy).2 p hp

end

theorem visits_train {ρ : Type} (E : Engine ρ ℝ) (xs ys : List (Tensor ℝ)) (n : Int) (net : Net ρ ℝ) :
    (visits E [.train xs ys n] net).1 = (trainCall E xs ys n net).2.1 := rfl

/-- A classifier with three inputs and two classes, trained for one epoch on two samples: it is intact and ends in the softmax, the
targets meet the hypothesis, one loss is printed, and the prediction that follows returns.  So the theorems say of it: the loss is
not negative, and the rows of the prediction are probabilities. -/
example {ρ : Type} (E : Engine ρ ℝ) (w bias x : List Nat → ℝ) (rng : ρ) (o : SGDOptions ℝ) (hm : o.momentum = 0) (hwd : o.weightDecay = 0) :
    let net := (classifier 3 2 w bias rng).compile (.crossEntropy (1 / 100)) (.newSGD o)
    let t : List Nat → ℝ := fun idx => if idx.getD 0 0 = idx.getD 1 0 then 1 else 0
    let c := trainCall E [ofFn [2, 3] x] [ofFn [2, 2] t] 1 net
    (∃ v, c.2.2 = [ofFn [1] fun _ => v] ∧ 0 ≤ v) ∧
    ∃ y, (Net.predict E (ofFn [2, 3] x) c.2.1).1 = .ok (ofFn [2, 2] y) ∧ InRange .softmax (ofFn [2, 2] y) := by
  intro net t c
  have d23 : Dims [2, 3] := ⟨by simp, by simp, by simp⟩
  have d32 : Dims [3, 2] := ⟨by simp, by simp, by simp⟩
  have d22 : Dims [2, 2] := ⟨by simp, by simp, by simp⟩
  have d12 : Dims [1, 2] := ⟨by simp, by simp, by simp⟩
  have hi : ∀ {ds} (f : List Nat → ℝ), Dims ds → Intact (ofFn ds f) := fun f h => ⟨make_dims h, by simp⟩
  obtain ⟨n1, n2, h1, -, h2⟩ := classifier_train d23 d32 d22 w bias x t rng E (1 / 100) o hm hwd
  have hn : IntactNet net := by
    refine ⟨?_, ?_⟩
    · intro l hl
      rcases List.mem_cons.1 hl with rfl | hl
      · exact ⟨hi w d32, hi bias d12, intactOpt_none, intactOpt_none, intactOpt_none⟩
      · rw [List.mem_singleton.1 hl]
        exact intactOpt_none
    · intro opt h
      cases h
      exact (C101_new E rng true).2.2.2.2.2.2.2.2.1 o
  have he : EndsIn .softmax net := ⟨[_], ⟨.softmax, none⟩, true, rfl, rfl⟩
  have hc : c = _ := h1
  constructor
  · refine ⟨_, by rw [hc], ?_⟩
    have hp := C102_losses E [ofFn [2, 3] x] [ofFn [2, 2] t] 1 net ?_
    · rw [show trainCall E [ofFn [2, 3] x] [ofFn [2, 2] t] 1 net = _ from h1] at hp
      exact hp _ (List.mem_singleton.2 rfl) _ (List.mem_singleton.2 rfl)
    intro l hl s hs
    cases hl
    rw [List.mem_singleton.1 hs]
    refine ⟨by norm_num, by norm_num, ?_⟩
    intro v hv
    obtain ⟨idx, -, rfl⟩ := List.mem_map.1 hv
    show 0 ≤ t idx
    simp only [t]
    split <;> norm_num
  · refine ⟨_, by rw [hc, h2], ?_⟩
    have hk := (C102_predictions E [.train [ofFn [2, 3] x] [ofFn [2, 2] t] 1] hn he (by
      intro v hv
      rw [List.mem_singleton.1 hv]
      exact ⟨fun z hz => List.mem_singleton.1 hz ▸ hi x d23, trivial⟩) true).1
    have hi' := (C101_model E [.train [ofFn [2, 3] x] [ofFn [2, 2] t] 1] hn (by
      intro v hv
      rw [List.mem_singleton.1 hv]
      exact fun z hz => List.mem_singleton.1 hz ▸ hi x d23)).1
    have e : (visits E [.train [ofFn [2, 3] x] [ofFn [2, 2] t] 1] net).1 = c.2.1 := visits_train E _ _ _ net
    rw [e, hc] at hi' hk
    exact predict_inRange E hi' hk (hi x d23) _ (congrArg Prod.fst h2)

end SmartDNN
