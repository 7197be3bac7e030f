import Verif.Props.FreshDense
import Verif.Props.Silent
import Verif.Spec.Mirrored

/-!
# C123: dead units that no training revives
-/

namespace SmartDNN
open Net Spec MeasureTheory ProbabilityTheory

variable {ρ : Type}

/-- **C123, refuted: dead units stay dead.**  A model begins with a new fully connected layer with `n` inputs and ReLU; any layers, loss and optimizer without weight decay follow.  With
probability at least `2 ^ (-n)` a given hidden unit answers 0 to every input, and goes on to do so after any training on any data. -/
theorem C123_untrainable_refuted [MeasurableSpace ρ] (P : Measure ρ) (S : RandSource ρ ℝ) (hm : ∀ k, Measurable (gaussAt S k)) (hlaw : ∀ k, P.map (gaussAt S k) = gaussianReal 0 1)
    (hind : iIndepFun (gaussAt S) P) {b n m j : Nat} {es : List Nat} (hw : Dims [n, m]) (hj : j < m) (m1 m2 : Bool) (rest : List (Layer ℝ)) (L : Loss ℝ) (opt : Optimizer (Nat × Bool) ℝ)
    (ho : Unregularised opt)
    (hwell : ∀ (l : FC ℝ) (r : ρ), HasDims [n, m] l.weights → HasDims [1, m] l.biases →
      WellShaped (Net.compile L opt ⟨⟨.fc l, m1⟩ :: ⟨.activation ⟨.relu, none⟩, m2⟩ :: rest, none, none, r⟩) [b, n] es) :
    (1 / 2) ^ n ≤ P {r | ∃ l r', FC.new S.engine n m r = .ok (l, r') ∧ ∀ us : List Use, (∀ u ∈ us, u.Fits [b, n] es) →
      ∃ l' rest', (after S.engine us (Net.compile L opt ⟨⟨.fc l, m1⟩ :: ⟨.activation ⟨.relu, none⟩, m2⟩ :: rest, none, none, r'⟩)).layers = ⟨.fc l', m1⟩ :: rest' ∧
        DeadOutput n m j l'} := by
  rw [← C123_dead_refuted P S hm hlaw hind hw hj]
  refine measure_mono ?_
  rintro r ⟨l, r', e, hd⟩
  refine ⟨l, r', e, fun us hu => ?_⟩
  obtain ⟨w, r'', -, h0, e2⟩ := fresh_dense S hw r
  rw [e2] at e
  obtain ⟨rfl, rfl⟩ := Prod.mk.inj (Except.ok.inj e)
  have hz := (deadOutput_iff hw hj h0).1 hd
  have haff : ∀ x i, affine n w (fun _ => 0) x [i, j] = 0 := fun x i => by
    simp only [affine, List.getD_cons_succ, List.getD_cons_zero, add_zero]
    exact Finset.sum_eq_zero fun k hk => by rw [hz k (Finset.mem_range.1 hk), mul_zero]
  obtain ⟨l', a', rest', w', bias', h1, -, h3, h4, -, -, h7⟩ := C113_incoming S.engine _ { weights := ofFn [n, m] w, biases := ofFn [1, m] fun _ => 0 } _ m1 m2 rest rfl rfl w
    (fun _ => 0) rfl rfl (hwell _ r'' ⟨w, rfl⟩ ⟨_, rfl⟩) (by rintro _ ⟨⟩; exact ho) hj us fun u h => by
      have := hu u h
      cases u with
      | train xs ys k =>
        obtain ⟨t1, t2, t3, t4⟩ := this
        refine ⟨t1, t2, fun x hx => ?_, t4⟩
        obtain ⟨f, rfl⟩ := t3 x hx
        exact ⟨f, rfl, fun i _ => (haff f i).le⟩
      | predict x => exact this
      | _ => exact this.elim
  refine ⟨l', _, h1, fun c hc x => ⟨_, _, C37_batch hc w' bias' x l' h3 h4, fun i _ => ?_⟩⟩
  rw [h7, haff]

/-- A model as in the theorem: two inputs, three hidden units, a dense layer behind, Adam without regularisation. -/
example (o : AdamOptions ℝ) (h1 : o.l1Strength ≤ 0) (h2 : o.l2Strength ≤ 0) :
    let rest : List (Layer ℝ) := [⟨.fc { weights := ofFn [3, 1] fun _ => 1, biases := ofFn [1, 1] fun _ => 0 }, true⟩]
    Dims [2, 3] ∧ Unregularised (K := Nat × Bool) (.newAdam o) ∧ ∀ (l : FC ℝ) (r : Unit), HasDims [2, 3] l.weights → HasDims [1, 3] l.biases →
      WellShaped (Net.compile .mse (.newAdam o) ⟨⟨.fc l, true⟩ :: ⟨.activation ⟨.relu, none⟩, true⟩ :: rest, none, none, r⟩) [4, 2] [4, 1] := by
  intro rest
  have d : ∀ {ds : List Nat}, ds ≠ [] → (∀ a ∈ ds, 0 < a) → ds.prod < 2 ^ 31 → Dims ds := fun a b c => ⟨a, b, c⟩
  refine ⟨d (by simp) (by simp) (by simp), .adam o h1 h2, ?_⟩
  rintro l r ⟨w, hw⟩ ⟨c, hc⟩
  exact (C67_compiled ⟨⟨.fc l, true⟩ :: ⟨.activation ⟨.relu, none⟩, true⟩ :: rest, none, none, r⟩ .mse
    (.cons (.dense (d (by simp) (by simp) (by simp)) (d (by simp) (by simp) (by simp)) (d (by simp) (by simp) (by simp)) hw hc)
      (.cons (.elementwise (d (by simp) (by simp) (by simp)) (by intro h; cases h))
        (.cons (.dense (d (by simp) (by simp) (by simp)) (d (by simp) (by simp) (by simp)) (d (by simp) (by simp) (by simp)) rfl rfl) (.nil _))))
    (d (by simp) (by simp) (by simp)) ⟨1, 0, 0, 0, false⟩ ⟨0, 0, 0, 0, false, 0⟩ o).2.2

end SmartDNN
